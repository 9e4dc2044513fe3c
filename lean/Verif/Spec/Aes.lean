import Verif.Model.MemXor
/-!
# AES as in FIPS 197
-/
namespace Verif.AesS

/-- Multiplication by `x` in GF(2^8) modulo `x^8 + x^4 + x^3 + x + 1` (FIPS 197, 4.2.1). -/
def xtime (b : Byte) : Byte := (b <<< 1) ^^^ (if b.msb then 0x1b else 0)

/-- The product in GF(2^8): the sum of `x^i * a` over the bits of `b`. -/
def gmul (a b : Byte) : Byte :=
  ((List.range 8).foldl (fun (s : Byte × Byte) i =>
    (if b.getLsbD i then s.1 ^^^ s.2 else s.1, xtime s.2)) (0, a)).1

/-- The inverse in GF(2^8), 0 for 0: `a^254`. -/
def ginv (a : Byte) : Byte :=
  let a2 := gmul a a
  let a4 := gmul a2 a2
  let a8 := gmul a4 a4
  let a16 := gmul a8 a8
  let a32 := gmul a16 a16
  let a64 := gmul a32 a32
  let a128 := gmul a64 a64
  gmul a128 (gmul a64 (gmul a32 (gmul a16 (gmul a8 (gmul a4 a2)))))

/-- The affine map of FIPS 197, 5.1.1. -/
def affine (b : Byte) : Byte :=
  b ^^^ b.rotateLeft 1 ^^^ b.rotateLeft 2 ^^^ b.rotateLeft 3 ^^^ b.rotateLeft 4 ^^^ 0x63

def sub (b : Byte) : Byte := affine (ginv b)

/-- Its inverse (FIPS 197, 5.3.2). -/
def invSub (b : Byte) : Byte :=
  ginv (b.rotateLeft 1 ^^^ b.rotateLeft 3 ^^^ b.rotateLeft 6 ^^^ 0x05)

/-- A column of the state, or a word of the key schedule. -/
@[ext] structure Col where
  b0 : Byte
  b1 : Byte
  b2 : Byte
  b3 : Byte
deriving DecidableEq

def Col.xor (x y : Col) : Col := ⟨x.b0 ^^^ y.b0, x.b1 ^^^ y.b1, x.b2 ^^^ y.b2, x.b3 ^^^ y.b3⟩

@[ext] structure State where
  c0 : Col
  c1 : Col
  c2 : Col
  c3 : Col
deriving DecidableEq

def Col.map (f : Byte → Byte) (x : Col) : Col := ⟨f x.b0, f x.b1, f x.b2, f x.b3⟩
def State.map (f : Col → Col) (s : State) : State := ⟨f s.c0, f s.c1, f s.c2, f s.c3⟩

def subBytes (s : State) : State := s.map (Col.map sub)
def invSubBytes (s : State) : State := s.map (Col.map invSub)

/-- Row `r` moves left by `r`. -/
def shiftRows (s : State) : State :=
  ⟨⟨s.c0.b0, s.c1.b1, s.c2.b2, s.c3.b3⟩, ⟨s.c1.b0, s.c2.b1, s.c3.b2, s.c0.b3⟩,
   ⟨s.c2.b0, s.c3.b1, s.c0.b2, s.c1.b3⟩, ⟨s.c3.b0, s.c0.b1, s.c1.b2, s.c2.b3⟩⟩

/-- Row `r` moves right by `r`. -/
def invShiftRows (s : State) : State :=
  ⟨⟨s.c0.b0, s.c3.b1, s.c2.b2, s.c1.b3⟩, ⟨s.c1.b0, s.c0.b1, s.c3.b2, s.c2.b3⟩,
   ⟨s.c2.b0, s.c1.b1, s.c0.b2, s.c3.b3⟩, ⟨s.c3.b0, s.c2.b1, s.c1.b2, s.c0.b3⟩⟩

def mixCol (x : Col) : Col :=
  ⟨gmul 2 x.b0 ^^^ gmul 3 x.b1 ^^^ x.b2 ^^^ x.b3, x.b0 ^^^ gmul 2 x.b1 ^^^ gmul 3 x.b2 ^^^ x.b3,
   x.b0 ^^^ x.b1 ^^^ gmul 2 x.b2 ^^^ gmul 3 x.b3, gmul 3 x.b0 ^^^ x.b1 ^^^ x.b2 ^^^ gmul 2 x.b3⟩

def invMixCol (x : Col) : Col :=
  ⟨gmul 0xe x.b0 ^^^ gmul 0xb x.b1 ^^^ gmul 0xd x.b2 ^^^ gmul 9 x.b3,
   gmul 9 x.b0 ^^^ gmul 0xe x.b1 ^^^ gmul 0xb x.b2 ^^^ gmul 0xd x.b3,
   gmul 0xd x.b0 ^^^ gmul 9 x.b1 ^^^ gmul 0xe x.b2 ^^^ gmul 0xb x.b3,
   gmul 0xb x.b0 ^^^ gmul 0xd x.b1 ^^^ gmul 9 x.b2 ^^^ gmul 0xe x.b3⟩

/-- AddRoundKey with words `4r .. 4r+3` of the schedule `w`. -/
def addKey (w : Nat → Col) (r : Nat) (s : State) : State :=
  ⟨s.c0.xor (w (4 * r)), s.c1.xor (w (4 * r + 1)), s.c2.xor (w (4 * r + 2)), s.c3.xor (w (4 * r + 3))⟩

/-- Rounds `1 .. n`. -/
def rounds (w : Nat → Col) : Nat → State → State
  | 0, s => s
  | n + 1, s => addKey w (n + 1) ((shiftRows (subBytes (rounds w n s))).map mixCol)

/-- Cipher (FIPS 197, 5.1). -/
def cipher (nr : Nat) (w : Nat → Col) (s : State) : State :=
  addKey w nr (shiftRows (subBytes (rounds w (nr - 1) (addKey w 0 s))))

/-- Rounds `n .. 1` of the inverse cipher. -/
def invRounds (w : Nat → Col) : Nat → State → State
  | 0, s => s
  | n + 1, s => invRounds w n ((addKey w (n + 1) (invSubBytes (invShiftRows s))).map invMixCol)

/-- InvCipher (FIPS 197, 5.3). -/
def invCipher (nr : Nat) (w : Nat → Col) (s : State) : State :=
  addKey w 0 (invSubBytes (invShiftRows (invRounds w (nr - 1) (addKey w nr s))))

/-- `x^n` in GF(2^8). -/
def xpow : Nat → Byte
  | 0 => 1
  | n + 1 => xtime (xpow n)

/-- `Rcon[j]`: `x^(j-1)` in the first byte. -/
def rcon (j : Nat) : Col := ⟨xpow (j - 1), 0, 0, 0⟩

def rotWord (x : Col) : Col := ⟨x.b1, x.b2, x.b3, x.b0⟩

/-- KeyExpansion (FIPS 197, 5.2) of the `nk` words `key`. -/
def expand (nk : Nat) (key : Nat → Col) (i : Nat) : Col :=
  if h : i < nk ∨ nk = 0 then key i
  else
    let t := expand nk key (i - 1)
    (expand nk key (i - nk)).xor
      (if i % nk = 0 then ((rotWord t).map sub).xor (rcon (i / nk))
       else if nk > 6 ∧ i % nk = 4 then t.map sub
       else t)
termination_by i

/-- The column of four bytes from position `4i`. -/
def colAt (l : List Byte) (i : Nat) : Col :=
  ⟨l.getD (4 * i) 0, l.getD (4 * i + 1) 0, l.getD (4 * i + 2) 0, l.getD (4 * i + 3) 0⟩

/-- The state of a block of sixteen bytes and back. -/
def load (l : List Byte) : State := ⟨colAt l 0, colAt l 1, colAt l 2, colAt l 3⟩
def Col.bytes (x : Col) : List Byte := [x.b0, x.b1, x.b2, x.b3]
def store (s : State) : List Byte := s.c0.bytes ++ s.c1.bytes ++ s.c2.bytes ++ s.c3.bytes

/-- AES encryption and decryption of one block with a key of `4*nk` bytes. -/
def encrypt (key block : List Byte) : List Byte :=
  let nk := key.length / 4
  store (cipher (nk + 6) (expand nk (colAt key)) (load block))
def decrypt (key block : List Byte) : List Byte :=
  let nk := key.length / 4
  store (invCipher (nk + 6) (expand nk (colAt key)) (load block))

end Verif.AesS
