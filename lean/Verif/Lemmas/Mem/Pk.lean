import Verif.Model.Mem.Pk
import Verif.Spec.MemPk
import Verif.Lemmas.Mem.Calm
import Verif.Lemmas.Mem.Bin
import Verif.Lemmas.Mem.ModExp
import Verif.Lemmas.Mem.EcpMul
import Verif.Lemmas.Mpi.NatRepPk
/-! Public-key functions in memory: what they do when no allocation fails. -/
namespace Verif.Mem
open Verif.Mpi

variable {w : Nat}

theorem lose_ok {c k : M Int} {s s' : St} (h : c s = .ok (0, s')) : lose c k s = k s' := by
  unfold lose; rw [bind_ok h]; rfl
theorem lose_fail {c k : M Int} {s s' : St} {st : Int} (h : c s = .ok (st, s')) (hst : st ≠ 0) : lose c k s = .ok (0, s') := by
  unfold lose; rw [bind_ok h, if_pos hst]; rfl

/-- `cry_mpi_load_bin` into a number that is not negative. -/
theorem loadBin_v (hw : DigitWidth w) {S x : Nat} {s : St} {z : Int} (h : V w z 0 (s.obj x)) (hz : 0 ≤ z) (bs : List Byte) :
    Leaf S s x (loadBin w x bs) (V w (beVal bs) 0) (V w z 0) := by
  obtain ⟨m, m1, m2, m3⟩ := h
  have hn : m.neg = false := V.nonneg_sign (o := s.obj x) (n := 0) (by have := hw.pos; omega) m1 m2 hz
  refine (loadBin_leaf hw m3 bs).mono (fun o ho => ?_) (fun o ho => ?_)
  · rw [hn] at ho
    have r := NatRep.loadBin hw bs
    exact ⟨_, r.wf, r.toInt, ho⟩
  · rw [ho]; exact ⟨m, m1, m2, m3⟩

section
variable {K : Ctx} {A : Env} {sp N : Nat} {s : St} {L L' : List Int} {i r x y m : Nat} {z zx zy zm : Int}

theorem cn_loadBin (hw : DigitWidth w) (hK : K.Calm) (h : At K (NV w sp A L) (sp + N) s) (hL : L.length = N) (hr : r = sp + i) (hi : i < N)
    (hd : 0 ≤ L.getD i 0) (bs : List Byte) (hz : z = beVal bs) (hL' : L' = L.set i z) :
    ∃ s', loadBin w r bs s = .ok (0, s') ∧ At K (NV w sp A L') (sp + N) s' := by
  subst hr hz
  exact cn_leaf hK h hi hL (loadBin_v hw (Nums.val h hi) hd bs) hL'

theorem cn_copy (hK : K.Calm) (h : At K (NV w sp A L) (sp + N) s) (hL : L.length = N) (hr : r = sp + i) (hi : i < N)
    (hx : Src w sp N A L x z) (hL' : L' = L.set i z) : ∃ s', copy r x s = .ok (0, s') ∧ At K (NV w sp A L') (sp + N) s' := by
  subst hr
  exact cn_leaf hK h hi hL (copy_leaf (Nums.val h hi) (hx.get h)) hL'

theorem modExp_v {S b e : Nat} {zb ze : Int} (hw : DigitWidth w) (hf : s.fails s.tick = false) (hr : Any w (s.obj r)) (hb : (s.obj b).Shows w zb)
    (he : (s.obj e).Shows w ze) (hm : (s.obj m).Shows w zm) (he0 : 0 ≤ ze) (hm1 : 1 < zm) (hrs : r < S) (hbs : b < S) (hes : e < S) (hms : m < S) :
    Leaf S s r (modExp w S r b e (some m)) (V w (zb ^ ze.toNat % zm) 0) (· = s.obj r) := by
  refine (modExp_leaf hw (m := some m) (zm := some zm) hr hb he ⟨hm, by omega⟩ hrs hbs hes (fun v hv => by cases hv; exact hms) he0 hf).mono
    (fun o ho => ?_) (fun o ho => ho)
  by_cases h0 : ze = 0
  · subst h0
    rw [if_pos rfl] at ho
    rwa [Int.toNat_zero, pow_zero, Int.emod_eq_of_lt (by omega) hm1]
  · rwa [if_neg h0] at ho

theorem cn_modExp {S b e : Nat} {zb ze : Int} (hS : S = sp + N) (hw : DigitWidth w) (hK : K.Calm) (h : At K (NV w sp A L) (sp + N) s) (hL : L.length = N)
    (hr : r = sp + i) (hi : i < N) (hb : Src w sp N A L b zb) (he : Src w sp N A L e ze) (hm : Src w sp N A L m zm) (he0 : 0 ≤ ze) (hm1 : 1 < zm)
    (hz : z = zb ^ ze.toNat % zm) (hL' : L' = L.set i z) :
    ∃ s', modExp w S r b e (some m) s = .ok (0, s') ∧ At K (NV w sp A L') (sp + N) s' := by
  subst hr hz hS
  exact cn_leaf hK h hi hL (modExp_v hw (hK.fails h _) (Nums.val h hi).any (hb.get h) (he.get h) (hm.get h) he0 hm1 (by omega) hb.lt he.lt hm.lt) hL'

/-- A call that writes to an argument. -/
theorem ca_leaf {c : M Int} {good bad : Obj → Prop} (hK : K.Calm) (h : At K (NV w sp A L) (sp + N) s) (hr : r < sp)
    (hl : Leaf (sp + N) s r c good bad) : ∃ s', c s = .ok (0, s') ∧ At K (NV w sp (Function.update A r good) L) (sp + N) s' := by
  obtain ⟨s', e, h'⟩ := calm_leaf hK h (by omega) hl
  exact ⟨s', e, h'.le (Nums.set_arg (Q := fun z => V w z 0) hr)⟩

theorem Src.argSet (hx : x < sp) : Src w sp N (Function.update A x (V w z 0)) L x z :=
  Src.arg hx fun o h => by rw [Function.update_self] at h; exact h.shows
theorem Src.argKeep {P : Obj → Prop} (hx : x < sp) (hne : x ≠ r) (h : ∀ o, A x o → o.Shows w z) : Src w sp N (Function.update A r P) L x z :=
  Src.arg hx fun o ho => by rw [Function.update_of_ne hne] at ho; exact h o ho

/-- The number of digits of a number. -/
theorem digs_count (hw : 0 < w) {m : Mpi} {n : Nat} (h : WF (2 ^ w) m) (hn : m.toInt (2 ^ w) = n) : m.digs.length = (n.size + w - 1) / w := by
  have hv : val (2 ^ w) m.digs = n := by rw [← Mpi.natAbs_toInt, hn]; rfl
  by_cases h0 : m.digs = []
  · rw [h0] at hv ⊢
    have : n = 0 := by simpa using hv.symm
    subst this
    rw [Nat.size_zero, List.length_nil, Nat.div_eq_of_lt (by omega)]
  · have hl : 0 < m.digs.length := List.length_pos_of_ne_nil h0
    have h1 := Mpi.val_lt h.toNorm.digits
    have h2 := val_pos_of_top (Nat.two_pow_pos w) h.toNorm.top h0
    rw [hv, ← pow_mul] at h1 h2
    have h3 : n.size ≤ w * m.digs.length := Nat.size_le.2 h1
    have h4 : w * (m.digs.length - 1) < n.size := Nat.lt_size.2 h2
    obtain ⟨k, hk⟩ : ∃ k, m.digs.length = k + 1 := ⟨m.digs.length - 1, by omega⟩
    rw [hk] at h3 h4 ⊢
    rw [Nat.add_sub_cancel, Nat.mul_comm] at h4
    rw [Nat.mul_add, Nat.mul_comm] at h3
    symm
    rw [Nat.div_eq_iff (by omega)]
    constructor
    · rw [Nat.add_mul]; omega
    · rw [Nat.add_mul]; omega

theorem cutMsg_run (hw : 0 < w) {n v : Nat} (h : (s.obj v).Shows w n) (msg : List Byte) :
    ∃ bs, cutMsg w v msg s = .ok (bs, s) ∧ beVal bs = cutVal w n msg := by
  obtain ⟨m, m1, m2, al, m3, m4⟩ := h
  have hd := digs_count hw m1 m2
  refine ⟨msg.take (m.digs.length * (w / 8)), ?_, ?_⟩
  · unfold cutMsg
    rw [bind_ok (hdr_ok m3)]
    dsimp only
    by_cases hlt : m.digs.length * (w / 8) < msg.length
    · rw [if_pos hlt]; rfl
    · rw [if_neg hlt, List.take_of_length_le (by omega)]; rfl
  · unfold cutVal; rw [hd]

/-- The comparison of absolute values. -/
theorem cmpAbs_shows (hx : (s.obj x).Shows w zx) (hy : (s.obj y).Shows w zy) :
    ∃ c, cmpAbs x y s = .ok (c, s) ∧ (c = 0 ↔ zx.natAbs = zy.natAbs) ∧ (c ≥ 0 ↔ zy.natAbs ≤ zx.natAbs) := by
  obtain ⟨mx, x1, x2, x3⟩ := hx
  obtain ⟨my, y1, y2, y3⟩ := hy
  refine ⟨_, cmpAbs_run x3 y3, ?_⟩
  have := Mpi.cmpAbs_spec (Nat.two_pow_pos w) x1.toNorm y1.toNorm
  rw [← x2, ← y2, Mpi.natAbs_toInt, Mpi.natAbs_toInt]
  omega

end

end Verif.Mem
