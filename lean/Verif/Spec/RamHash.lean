import Verif.Spec.Ram
import Verif.Spec.Hash
import Verif.Model.Ram.Hash
/-!
# What a hash function on buffers in memory must do
-/
namespace Verif.RamHash
open Verif.Ram

/-- The interface computes `f`, whose values have `hl` bytes, with the array `data` of `B` bytes at `dat` and local arrays in
the ranges `scr`, for update calls of at most `N` bytes.  `Is l c m` says that the array `l` and the rest `c` of the context
stand for the message `m` so far.  An update changes nothing but the array, wherever the message lies outside of it; the
digest may be written over anything. -/
structure Computes {κ : Type} (H : Itf κ) (f : List Byte → List Byte) (dat B hl N : Nat) (scr : List (Nat × Nat))
    (Is : List Byte → κ → List Byte → Prop) : Prop where
  size : ∀ {l c m}, Is l c m → l.length = B
  len : ∀ m, (f m).length = hl
  init : ∀ {R : Ram}, R.Owned dat B → ∃ l c, H.init R = some (R.put dat l, c) ∧ Is l c []
  update : ∀ {R : Ram} {l c m p n}, Is l c m → R.Owned dat B → R.Owned p n → Apart dat B p n → n ≤ N →
    ∃ l' c', H.update (R.put dat l) c p n = some (R.put dat l', c') ∧ Is l' c' (m ++ R.bytes p n)
  digest : ∀ {R : Ram} {l c m out}, Is l c m → R.Owned dat B → AllOwned R scr → R.Owned out hl →
    AllApart ((dat, B) :: scr) →
    ∃ Q c', H.digest (R.put dat l) c out = some (Q.put out (f m), c') ∧ Wrote R Q [] ((dat, B) :: scr)
  clear : ∀ {R : Ram} {c}, R.Owned dat B → ∃ c', H.clear R c = some (R.put dat (List.replicate B 0), c')

open Verif.HashS in
/-- What the code gives for SHA-512 and SHA-384 (C38): the digest of FIPS 180-4, except that the length is left out of the
padding when 112 bytes or more remain after the last whole block. -/
def sha512Code (is384 : Bool) (m : List Byte) : List Byte :=
  if m.length % 128 < 112 then (if is384 then sha384 m else sha512 m)
  else (mdFold 128 (fun H b => compress p512 H (wordBE 8 b)) (ivOf 64 fun i => primes.getD (if is384 then i + 8 else i) 0)
    (m ++ [0x80] ++ List.replicate (127 - m.length % 128) 0)).bytes.take (if is384 then 48 else 64)

end Verif.RamHash
