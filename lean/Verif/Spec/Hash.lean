import Verif.Spec.Modes
import Verif.Spec.HashTypes
/-!
# Hash functions: FIPS 180-4 (SHA-1, SHA-256, SHA-384, SHA-512) and RFC 1321 (MD5)
-/
namespace Verif.HashS
open Verif.Modes

/-! ### Padding and iteration -/

/-- The padded message: one bit, the least number of zeros, the encoded length (of `L` bytes), so that the total is
a multiple of `B` bytes (FIPS 180-4, 5.1; RFC 1321, 3.1 and 3.2). -/
def mdPad (B L : Nat) (len msg : List Byte) : List Byte :=
  msg ++ [0x80] ++ List.replicate ((B - (msg.length + 1 + L) % B) % B) 0 ++ len

/-- Iterate the compression function over the blocks of `B` bytes. -/
def mdFold {σ : Type} (B : Nat) (f : σ → List Byte → σ) (iv : σ) (l : List Byte) : σ :=
  ((List.range (l.length / B)).map fun i => (l.drop (B * i)).take B).foldl f iv

/-- Word `t` of a block, most significant byte first. -/
def wordBE (bytes : Nat) (l : List Byte) (t : Nat) : BitVec (8 * bytes) :=
  BitVec.ofNat (8 * bytes) (beVal ((l.drop (bytes * t)).take bytes))

/-- Word `t` of a block, least significant byte first. -/
def wordLE (l : List Byte) (t : Nat) : BitVec 32 := BitVec.ofNat 32 (beVal ((l.drop (4 * t)).take 4).reverse)

/-! ### SHA-2 (FIPS 180-4, 4.1.2, 4.1.3, 6.2, 6.4) -/

def ch {n} (x y z : BitVec n) : BitVec n := (x &&& y) ^^^ (~~~ x &&& z)
def maj {n} (x y z : BitVec n) : BitVec n := (x &&& y) ^^^ (x &&& z) ^^^ (y &&& z)

/-- What differs between SHA-256 and SHA-512. -/
structure Sha2 (n : Nat) where
  (S0 S1 s0 s1 : BitVec n → BitVec n)
  K : Nat → BitVec n
  rounds : Nat

/-- The message schedule. -/
def sched {n} (P : Sha2 n) (M : Nat → BitVec n) (t : Nat) : BitVec n :=
  if t < 16 then M t
  else P.s1 (sched P M (t - 2)) + sched P M (t - 7) + P.s0 (sched P M (t - 15)) + sched P M (t - 16)
termination_by t
decreasing_by all_goals omega

def round {n} (P : Sha2 n) (M : Nat → BitVec n) (r : Regs n) (t : Nat) : Regs n :=
  let t1 := r.h + P.S1 r.e + ch r.e r.f r.g + P.K t + sched P M t
  let t2 := P.S0 r.a + maj r.a r.b r.c
  ⟨t1 + t2, r.a, r.b, r.c, r.d + t1, r.e, r.f, r.g⟩

def compress {n} (P : Sha2 n) (H : Regs n) (M : Nat → BitVec n) : Regs n :=
  let r := (List.range P.rounds).foldl (round P M) H
  ⟨r.a + H.a, r.b + H.b, r.c + H.c, r.d + H.d, r.e + H.e, r.f + H.f, r.g + H.g, r.h + H.h⟩

/-- The whole part of the `k`-th root of `n`, found bit by bit below `2^bits` (`iroot_spec`). -/
def irootFrom (k n : Nat) : Nat → Nat → Nat
  | 0, acc => acc
  | b + 1, acc => irootFrom k n b (if (acc + 2 ^ b) ^ k ≤ n then acc + 2 ^ b else acc)

def isPrime (p : Nat) : Bool := 2 ≤ p && (List.range p).all fun d => d < 2 || p % d != 0

/-- The primes below 410: there are eighty of them. -/
def primes : List Nat := (List.range 410).filter isPrime

/-- The first `bits` bits of the fractional parts of the cube roots of the primes (4.2.2, 4.2.3). -/
def cubeFrac (bits : Nat) (p : Nat) : BitVec bits := BitVec.ofNat bits (irootFrom 3 (p * 2 ^ (3 * bits)) (bits + 3) 0)
/-- The first `bits` bits of the fractional parts of the square roots of the primes (5.3.3 - 5.3.5). -/
def sqrtFrac (bits : Nat) (p : Nat) : BitVec bits := BitVec.ofNat bits (irootFrom 2 (p * 2 ^ (2 * bits)) (bits + 3) 0)

def p256 : Sha2 32 where
  S0 x := x.rotateRight 2 ^^^ x.rotateRight 13 ^^^ x.rotateRight 22
  S1 x := x.rotateRight 6 ^^^ x.rotateRight 11 ^^^ x.rotateRight 25
  s0 x := x.rotateRight 7 ^^^ x.rotateRight 18 ^^^ x >>> 3
  s1 x := x.rotateRight 17 ^^^ x.rotateRight 19 ^^^ x >>> 10
  K t := cubeFrac 32 (primes.getD t 0)
  rounds := 64

def p512 : Sha2 64 where
  S0 x := x.rotateRight 28 ^^^ x.rotateRight 34 ^^^ x.rotateRight 39
  S1 x := x.rotateRight 14 ^^^ x.rotateRight 18 ^^^ x.rotateRight 41
  s0 x := x.rotateRight 1 ^^^ x.rotateRight 8 ^^^ x >>> 7
  s1 x := x.rotateRight 19 ^^^ x.rotateRight 61 ^^^ x >>> 6
  K t := cubeFrac 64 (primes.getD t 0)
  rounds := 80

/-- Initial value from the square roots of eight primes. -/
def ivOf (bits : Nat) (p : Nat → Nat) : Regs bits :=
  ⟨sqrtFrac bits (p 0), sqrtFrac bits (p 1), sqrtFrac bits (p 2), sqrtFrac bits (p 3),
   sqrtFrac bits (p 4), sqrtFrac bits (p 5), sqrtFrac bits (p 6), sqrtFrac bits (p 7)⟩

def Regs.bytes {n} (r : Regs n) : List Byte :=
  ([r.a, r.b, r.c, r.d, r.e, r.f, r.g, r.h].map fun w => encodeBE (n / 8) w.toNat).flatten

def sha256 (msg : List Byte) : List Byte :=
  (mdFold 64 (fun H b => compress p256 H (wordBE 4 b)) (ivOf 32 fun i => primes.getD i 0)
    (mdPad 64 8 (encodeBE 8 (8 * msg.length)) msg)).bytes

def sha512 (msg : List Byte) : List Byte :=
  (mdFold 128 (fun H b => compress p512 H (wordBE 8 b)) (ivOf 64 fun i => primes.getD i 0)
    (mdPad 128 16 (encodeBE 16 (8 * msg.length)) msg)).bytes

/-- SHA-384: the roots of the ninth to sixteenth primes, and the first 48 bytes. -/
def sha384 (msg : List Byte) : List Byte :=
  ((mdFold 128 (fun H b => compress p512 H (wordBE 8 b)) (ivOf 64 fun i => primes.getD (i + 8) 0)
    (mdPad 128 16 (encodeBE 16 (8 * msg.length)) msg)).bytes).take 48

/-! ### SHA-1 (FIPS 180-4, 4.1.1, 4.2.1, 6.1) -/

def sched1 (M : Nat → BitVec 32) (t : Nat) : BitVec 32 :=
  if t < 16 then M t
  else (sched1 M (t - 3) ^^^ sched1 M (t - 8) ^^^ sched1 M (t - 14) ^^^ sched1 M (t - 16)).rotateLeft 1
termination_by t
decreasing_by all_goals omega

def f1 (t : Nat) (x y z : BitVec 32) : BitVec 32 :=
  if t < 20 then ch x y z else if t < 40 then x ^^^ y ^^^ z else if t < 60 then maj x y z else x ^^^ y ^^^ z

def k1 (t : Nat) : BitVec 32 :=
  if t < 20 then 0x5a827999#32 else if t < 40 then 0x6ed9eba1#32 else if t < 60 then 0x8f1bbcdc#32 else 0xca62c1d6#32

def round1 (M : Nat → BitVec 32) (r : Regs5) (t : Nat) : Regs5 :=
  ⟨r.a.rotateLeft 5 + f1 t r.b r.c r.d + r.e + k1 t + sched1 M t, r.a, r.b.rotateLeft 30, r.c, r.d⟩

def compress1 (H : Regs5) (M : Nat → BitVec 32) : Regs5 :=
  let r := (List.range 80).foldl (round1 M) H
  ⟨r.a + H.a, r.b + H.b, r.c + H.c, r.d + H.d, r.e + H.e⟩

def sha1 (msg : List Byte) : List Byte :=
  let r := mdFold 64 (fun H b => compress1 H (wordBE 4 b))
    ⟨0x67452301#32, 0xefcdab89#32, 0x98badcfe#32, 0x10325476#32, 0xc3d2e1f0#32⟩
    (mdPad 64 8 (encodeBE 8 (8 * msg.length)) msg)
  ([r.a, r.b, r.c, r.d, r.e].map fun w => encodeBE 4 w.toNat).flatten

/-! ### MD5 (RFC 1321, 3.3 - 3.5) -/

/-- `T[i] = floor(2^32 * abs(sin(i + 1)))`. -/
def md5T : List (BitVec 32) := [
  0xd76aa478, 0xe8c7b756, 0x242070db, 0xc1bdceee,
  0xf57c0faf, 0x4787c62a, 0xa8304613, 0xfd469501,
  0x698098d8, 0x8b44f7af, 0xffff5bb1, 0x895cd7be,
  0x6b901122, 0xfd987193, 0xa679438e, 0x49b40821,
  0xf61e2562, 0xc040b340, 0x265e5a51, 0xe9b6c7aa,
  0xd62f105d, 0x02441453, 0xd8a1e681, 0xe7d3fbc8,
  0x21e1cde6, 0xc33707d6, 0xf4d50d87, 0x455a14ed,
  0xa9e3e905, 0xfcefa3f8, 0x676f02d9, 0x8d2a4c8a,
  0xfffa3942, 0x8771f681, 0x6d9d6122, 0xfde5380c,
  0xa4beea44, 0x4bdecfa9, 0xf6bb4b60, 0xbebfbc70,
  0x289b7ec6, 0xeaa127fa, 0xd4ef3085, 0x04881d05,
  0xd9d4d039, 0xe6db99e5, 0x1fa27cf8, 0xc4ac5665,
  0xf4292244, 0x432aff97, 0xab9423a7, 0xfc93a039,
  0x655b59c3, 0x8f0ccc92, 0xffeff47d, 0x85845dd1,
  0x6fa87e4f, 0xfe2ce6e0, 0xa3014314, 0x4e0811a1,
  0xf7537e82, 0xbd3af235, 0x2ad7d2bb, 0xeb86d391]

def md5F (t : Nat) (x y z : BitVec 32) : BitVec 32 :=
  if t < 16 then (x &&& y) ||| (~~~ x &&& z)
  else if t < 32 then (x &&& z) ||| (y &&& ~~~ z)
  else if t < 48 then x ^^^ y ^^^ z
  else y ^^^ (x ||| ~~~ z)

/-- Which word is used in step `t`. -/
def md5G (t : Nat) : Nat :=
  if t < 16 then t else if t < 32 then (5 * t + 1) % 16 else if t < 48 then (3 * t + 5) % 16 else (7 * t) % 16

def md5S (t : Nat) : Nat :=
  (if t < 16 then [7, 12, 17, 22] else if t < 32 then [5, 9, 14, 20] else if t < 48 then [4, 11, 16, 23]
    else [6, 10, 15, 21]).getD (t % 4) 0

def md5Step (M : Nat → BitVec 32) (r : Regs4) (t : Nat) : Regs4 :=
  ⟨r.d, r.b + (r.a + md5F t r.b r.c r.d + M (md5G t) + md5T.getD t 0).rotateLeft (md5S t), r.b, r.c⟩

def md5Compress (H : Regs4) (M : Nat → BitVec 32) : Regs4 :=
  let r := (List.range 64).foldl (md5Step M) H
  ⟨r.a + H.a, r.b + H.b, r.c + H.c, r.d + H.d⟩

def md5 (msg : List Byte) : List Byte :=
  let r := mdFold 64 (fun H b => md5Compress H (wordLE b))
    ⟨0x67452301#32, 0xefcdab89#32, 0x98badcfe#32, 0x10325476#32⟩
    (mdPad 64 8 (encodeBE 8 (8 * msg.length)).reverse msg)
  ([r.a, r.b, r.c, r.d].map fun w => (encodeBE 4 w.toNat).reverse).flatten

end Verif.HashS
