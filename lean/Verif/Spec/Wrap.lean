import Verif.Spec.Modes
/-!
# AES key wrap (RFC 3394, 2.2.1, index based)
-/
namespace Verif.Modes

/-- Steps of one pass: `B = E(A | R[i])`, `A = MSB(64,B) ^ t`, `R[i] = LSB(64,B)` with `t = n*j + i`. -/
def rfcPass (E : List Byte → List Byte) (n j : Nat) :
    Nat → List Byte → List (List Byte) → List Byte × List (List Byte)
  | _, a, [] => (a, [])
  | i, a, x :: xs =>
    let b := E (a ++ x)
    let r := rfcPass E n j (i + 1) (xorB (b.take 8) (encodeBE 8 (n * j + i))) xs
    (r.1, b.drop 8 :: r.2)

/-- Six passes, from the initial value A6A6A6A6A6A6A6A6. -/
def rfcWrap (E : List Byte → List Byte) (p : List (List Byte)) : List (List Byte) :=
  let s := (List.range 6).foldl (fun s j => rfcPass E p.length j 1 s.1 s.2) (List.replicate 8 0xA6, p)
  s.1 :: s.2

end Verif.Modes
