import Verif.Props.Modes.Cbc
import Verif.Props.Modes.Cfb
/-! Changed blocks. -/
namespace Verif.Modes
variable {E D : List Byte → List Byte} {c : Nat}

theorem xorB_right_comm : ∀ (a b d : List Byte), xorB (xorB a b) d = xorB (xorB a d) b
  | [], _, _ => rfl
  | _ :: _, [], [] => rfl
  | _ :: _, [], _ :: _ => rfl
  | _ :: _, _ :: _, [] => rfl
  | x :: a, y :: b, z :: d => by
    have ih := xorB_right_comm a b d
    show (x ^^^ y ^^^ z) :: xorB (xorB a b) d = (x ^^^ z ^^^ y) :: xorB (xorB a d) b
    rw [ih, BitVec.xor_assoc, BitVec.xor_comm y z, ← BitVec.xor_assoc]

theorem xorB_mid : ∀ (a b d : List Byte), a.length = b.length → xorB (xorB a b) (xorB b d) = xorB a d
  | [], _, _, _ => rfl
  | _ :: _, [], _, h => by simp at h
  | _ :: _, _ :: _, [], _ => rfl
  | x :: a, y :: b, z :: d, h => by
    have ih := xorB_mid a b d (by simpa using h)
    show (x ^^^ y ^^^ (y ^^^ z)) :: xorB (xorB a b) (xorB b d) = (x ^^^ z) :: xorB a d
    rw [ih, BitVec.xor_assoc, ← BitVec.xor_assoc y y z, BitVec.xor_self, BitVec.zero_xor]

theorem cbcDec_whole (hD : ∀ b, b.length = c → (D b).length = c) : ∀ (bs : List (List Byte)) (iv : List Byte), iv.length = c → Blocks c bs →
    Blocks c (cbcDec D iv bs) ∧ (cbcDec D iv bs).length = bs.length
  | [], _, _, _ => ⟨fun _ h => (List.not_mem_nil h).elim, rfl⟩
  | b :: bs, iv, hiv, h => by
    obtain ⟨h1, h2⟩ := h.cons
    obtain ⟨i1, i2⟩ := cbcDec_whole hD bs b h1 h2
    exact ⟨Blocks.mk (by rw [xorB_length, hD b h1, hiv, min_self]) i1, by rw [cbcDec, List.length_cons, i2, List.length_cons]⟩

theorem cfbEnc_whole (hE : ∀ b, b.length = c → (E b).length = c) : ∀ (bs : List (List Byte)) (v : List Byte), v.length = c → Blocks c bs →
    Blocks c (cfbEnc E v bs) ∧ (cfbEnc E v bs).length = bs.length
  | [], _, _, _ => ⟨fun _ h => (List.not_mem_nil h).elim, rfl⟩
  | b :: bs, v, hv, h => by
    obtain ⟨h1, h2⟩ := h.cons
    have hl : (xorB b (E v)).length = c := by rw [xorB_length, hE v hv, h1, min_self]
    obtain ⟨i1, i2⟩ := cfbEnc_whole hE bs _ hl h2
    exact ⟨Blocks.mk hl i1, by rw [cfbEnc, List.length_cons, i2, List.length_cons]⟩

theorem cfbEnc_app : ∀ (as bs : List (List Byte)) (v : List Byte), cfbEnc E v (as ++ bs) = cfbEnc E v as ++ cfbEnc E ((cfbEnc E v as).getLastD v) bs
  | [], _, _ => rfl
  | a :: as, bs, v => by
    rw [List.cons_append, cfbEnc, cfbEnc_app as bs, cfbEnc, List.getLastD_cons, List.cons_append]

/-- Different registers and the same blocks, or the same register and different first blocks. -/
theorem cfbEnc_apart (hE : ∀ b, b.length = c → (E b).length = c) (hinj : ∀ a b, a.length = c → b.length = c → E a = E b → a = b) :
    ∀ (bs : List (List Byte)) (v w : List Byte), v.length = c → w.length = c → v ≠ w → Blocks c bs → ∀ i, i < bs.length → (cfbEnc E v bs)[i]? ≠ (cfbEnc E w bs)[i]?
  | b :: bs, v, w, hv, hw, hne, h, i, hi => by
    obtain ⟨h1, h2⟩ := h.cons
    have l1 : (xorB b (E v)).length = c := by rw [xorB_length, hE v hv, h1, min_self]
    have l2 : (xorB b (E w)).length = c := by rw [xorB_length, hE w hw, h1, min_self]
    have hx : xorB b (E v) ≠ xorB b (E w) := fun e =>
      hne (hinj _ _ hv hw (xorB_left_cancel (by rw [hE v hv, h1]) (by rw [hE w hw, h1]) e))
    cases i with
    | zero => simpa [cfbEnc] using hx
    | succ i => simpa [cfbEnc] using cfbEnc_apart hE hinj bs _ _ l1 l2 hx h2 i (by simpa using hi)

end Verif.Modes
