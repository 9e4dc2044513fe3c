import Verif.Lemmas.Mem.Pk
import Verif.Props.Pk.Dsa
/-! DSA in memory: what the functions do when no allocation fails. -/
namespace Verif.Mem
open Verif.Mpi

variable {w : Nat} {K : Ctx} {A : Env} {sp N : Nat} {s : St}

/-- A block between `cry_mpi_init_list` and `cry_mpi_clear_list` with a status of its own. -/
theorem locals_calm' (hw : 0 < w) (hK : K.Calm) {A' : Env} {as : List Nat} {body : M Int} {Q : Int → Prop} (h : At K (Locals sp A (· = Obj.fresh)) (sp + N) s)
    (has : ∀ v, v ∈ as ↔ sp ≤ v ∧ v < sp + N) (hn : as.Nodup)
    (hb : ∀ s1, At K (NV w sp A (List.replicate N 0)) (sp + N) s1 → ∃ st s2 L, body s1 = .ok (st, s2) ∧ At K (NV w sp A' L) (sp + N) s2 ∧ Q st) :
    ∃ st s', chk (initList as) (do let st ← body; clearList as; pure st) s = .ok (st, s') ∧ At K A' sp s' ∧ Q st := by
  obtain ⟨s1, e1, h1⟩ := initList_calm hw hK h has hn
  obtain ⟨st, s2, L, e2, h2, q⟩ := hb s1 h1
  obtain ⟨s3, e3, h3⟩ := clearList_calm h2 has
  exact ⟨st, s3, by rw [chk_ok e1, bind_ok e2, bind_ok e3]; rfl, h3, q⟩

/-- The verification equation for one inverse decides it for all. -/
theorem dsa_equation_iff {p q : Nat} {g y : Int} {z : Nat} {r t : Int} {v : Nat} (hv : t * v ≡ 1 [ZMOD q]) :
    Dsa.Equation p q g y z r t ↔ (g ^ (z * v % q) * y ^ ((r * v % q).toNat)) % p % q = |r| := by
  constructor
  · rintro ⟨v', m', e'⟩
    have hv : (v : Int) ≡ v' [ZMOD q] := by
      have a := m'.mul_right (v : Int)
      have b := hv.mul_right (v' : Int)
      rw [one_mul] at a b
      exact a.symm.trans (by rw [mul_right_comm]; exact b)
    have e1 : z * v % q = z * v' % q := ((Int.natCast_modEq_iff.1 hv).mul_left _)
    have e2 : r * v % q = r * v' % q := hv.mul_left _
    rw [e1, e2, e']
  · intro h; exact ⟨v, hv, h⟩

theorem dsaVerify_calm (hw : DigitWidth w) (hK : K.Calm) (h : At K A sp s) {p q g pub r t : Nat} {P Q : Nat} {G Y R T : Int}
    (hp : p < sp) (hq : q < sp) (hg : g < sp) (hy : pub < sp) (hr : r < sp) (ht : t < sp)
    (ap : ∀ o, A p o → o.Shows w P) (aq : ∀ o, A q o → o.Shows w Q) (ag : ∀ o, A g o → o.Shows w G) (ay : ∀ o, A pub o → o.Shows w Y)
    (ar : ∀ o, A r o → o.Shows w R) (at' : ∀ o, A t o → o.Shows w T) (hP : 1 < P) (hQ : 0 < Q) (msg : List Byte) :
    ∃ st s', dsaVerify w sp p q g pub r t msg s = .ok (st, s') ∧ At K A sp s' ∧
      ((st = 0 ∧ (Int.gcd T Q ≠ 1 ∨ Dsa.Equation P Q G Y (cutVal w Q msg) R T)) ∨
       (st = -1 ∧ ¬ (Int.gcd T Q ≠ 1 ∨ Dsa.Equation P Q G Y (cutVal w Q msg) R T))) := by
  have hw0 : 0 < w := by have := hw.pos; omega
  obtain ⟨s0, e0, h0⟩ := decl_run h 4
  unfold dsaVerify
  rw [bind_ok e0]
  have hlist : ∀ v, v ∈ [sp, sp + 1, sp + 2, sp + 3] ↔ sp ≤ v ∧ v < sp + 4 := by
    intro v; simp only [List.mem_cons, List.not_mem_nil, or_false]; omega
  obtain ⟨s1, e1, h1⟩ := initList_calm hw0 hK h0 hlist (by simp)
  rw [chk_ok e1]
  obtain ⟨bs, e2, hbs⟩ := cutMsg_run hw0 (v := q) (s := s1) (n := Q) (aq _ (by have := h1.objs q (by omega); rwa [NV.lo hq] at this)) msg
  rw [bind_ok e2]
  set Z : Nat := cutVal w Q msg with hZ
  have sq : ∀ L, Src w sp 4 A L q Q := fun L => Src.arg hq aq
  have sP : ∀ L, Src w sp 4 A L p P := fun L => Src.arg hp ap
  obtain ⟨s3, e3, h3⟩ := cn_loadBin hw hK h1 (by simp) (r := sp) (i := 0) (by omega) (by omega) (by simp) bs rfl rfl
  rw [hbs] at h3
  obtain ⟨s4, e4, h4⟩ := cn_copy hK h3 (by simp) (r := sp + 1) (i := 1) rfl (by omega) (x := t) (Src.arg ht at') rfl
  obtain ⟨i1, i2⟩ := cn_inv (S := sp + 4) rfl hw hK h4 (by simp) (r := sp + 1) (i := 1) rfl (by omega) (x := sp + 1) (Src.loc (j := 1) rfl (by omega)) (sq _) (by omega) (by omega)
  have fin : ∀ {c : M Int} {s2 s' : St} {st : Int} {L : List Int}, c s2 = .ok (st, s') → At K (NV w sp A L) (sp + 4) s' →
      ∃ s'', (do let st ← c; clearList [sp, sp + 1, sp + 2, sp + 3]; pure st : M Int) s2 = .ok (st, s'') ∧ At K A sp s'' := by
    intro c s2 s' st L e h
    obtain ⟨s'', e', h'⟩ := clearList_calm h hlist
    exact ⟨s'', by rw [bind_ok e, bind_ok e']; rfl, h'⟩
  have hget : (((List.replicate 4 (0 : Int)).set 0 (Z : Int)).set 1 T).getD 1 0 = T := rfl
  rw [hget] at i1 i2
  by_cases hgc : Int.gcd T Q = 1
  · obtain ⟨s5, v, e5, ⟨v0, v1, v2⟩, h5⟩ := i1 hgc
    obtain ⟨V, rfl⟩ := Int.eq_ofNat_of_zero_le v0
    obtain ⟨s6, e6, h6⟩ := cn_mul (S := sp + 4) rfl hw hK h5 (by simp) (r := sp) (i := 0) rfl (by omega) (Src.loc (j := 0) rfl (by omega)) (Src.loc (j := 1) rfl (by omega)) rfl rfl
    obtain ⟨s7, e7, h7⟩ := cn_mod (S := sp + 4) rfl hw hK h6 (by simp) (r := sp) (i := 0) rfl (by omega) (Src.loc (j := 0) rfl (by omega)) (sq _) (by omega) (by omega) rfl rfl
    obtain ⟨s8, e8, h8⟩ := cn_mul (S := sp + 4) rfl hw hK h7 (by simp) (r := sp + 1) (i := 1) rfl (by omega) (Src.arg hr ar) (Src.loc (j := 1) rfl (by omega)) rfl rfl
    obtain ⟨s9, e9, h9⟩ := cn_mod (S := sp + 4) rfl hw hK h8 (by simp) (r := sp + 1) (i := 1) rfl (by omega) (Src.loc (j := 1) rfl (by omega)) (sq _) (by omega) (by omega) rfl rfl
    have l9 : ((((((((List.replicate 4 (0 : Int)).set 0 (Z : Int)).set 1 T).set 1 (V : Int)).set 0 ((Z : Int) * V)).set 0 ((Z : Int) * V % Q)).set 1 (R * V)).set 1 (R * V % Q)) =
        [(Z : Int) * V % Q, R * V % Q, 0, 0] := rfl
    have h9 : At K (NV w sp A [(Z : Int) * V % Q, R * V % Q, 0, 0]) (sp + 4) s9 := h9
    obtain ⟨s10, e10, h10⟩ := cn_modExp (S := sp + 4) rfl hw hK h9 rfl (r := sp + 2) (i := 2) rfl (by omega) (Src.arg hg ag) (Src.loc (x := sp) (j := 0) rfl (by omega)) (sP _)
      (Int.emod_nonneg _ (by omega)) (by omega) rfl rfl
    obtain ⟨s11, e11, h11⟩ := cn_modExp (S := sp + 4) rfl hw hK h10 rfl (r := sp + 3) (i := 3) rfl (by omega) (Src.arg hy ay) (Src.loc (x := sp + 1) (j := 1) rfl (by omega)) (sP _)
      (Int.emod_nonneg _ (by omega)) (by omega) rfl rfl
    obtain ⟨s12, e12, h12⟩ := cn_mul (S := sp + 4) rfl hw hK h11 rfl (r := sp + 2) (i := 2) rfl (by omega) (Src.loc (x := sp + 2) (j := 2) rfl (by omega)) (Src.loc (x := sp + 3) (j := 3) rfl (by omega)) rfl rfl
    obtain ⟨s13, e13, h13⟩ := cn_mod (S := sp + 4) rfl hw hK h12 rfl (r := sp + 2) (i := 2) rfl (by omega) (Src.loc (x := sp + 2) (j := 2) rfl (by omega)) (sP _) (by omega) (by omega) rfl rfl
    obtain ⟨s14, e14, h14⟩ := cn_mod (S := sp + 4) rfl hw hK h13 rfl (r := sp + 2) (i := 2) rfl (by omega) (Src.loc (x := sp + 2) (j := 2) rfl (by omega)) (sq _) (by omega) (by omega) rfl rfl
    obtain ⟨c, e15, c1, -⟩ := cmpAbs_shows (Src.get (Src.loc (x := sp + 2) (j := 2) rfl (by omega)) h14) (Src.get (Src.arg hr ar) h14)
    have c1 : c = 0 ↔ (G ^ ((Z : Int) * V % Q).toNat % P * (Y ^ (R * V % Q).toNat % P) % P % Q).natAbs = R.natAbs := c1
    have key : c = 0 ↔ Dsa.Equation P Q G Y Z R T := by
      rw [c1, dsa_equation_iff v2]
      have a1 : ((Z : Int) * V % Q).toNat = Z * V % Q := by
        rw [← Nat.cast_mul, ← Int.natCast_mod, Int.toNat_natCast]
      rw [a1, ← Int.mul_emod, ← Int.natCast_inj, Int.natCast_natAbs, Int.natCast_natAbs, abs_of_nonneg (Int.emod_nonneg _ (by omega))]
    have e15 : (do let c ← cmpAbs (sp + 2) r; pure (if c = 0 then 0 else -1) : M Int) s14 = .ok (if c = 0 then 0 else -1, s14) := by
      rw [bind_ok e15]; rfl
    obtain ⟨s16, e16, h16⟩ := fin (c := _) (s2 := s1) (st := if c = 0 then 0 else -1)
      ((lose_ok e3).trans <| (lose_ok e4).trans <| (lose_ok e5).trans <| (lose_ok e6).trans <| (lose_ok e7).trans <| (lose_ok e8).trans <| (lose_ok e9).trans <|
        (lose_ok e10).trans <| (lose_ok e11).trans <| (lose_ok e12).trans <| (lose_ok e13).trans <| (lose_ok e14).trans <| e15) h14
    refine ⟨_, s16, e16, h16, ?_⟩
    by_cases hc : c = 0
    · left; exact ⟨if_pos hc, Or.inr (key.1 hc)⟩
    · right; exact ⟨if_neg hc, fun h => h.elim (fun h => h hgc) fun h => hc (key.2 h)⟩
  · obtain ⟨s5, e5, h5⟩ := i2 hgc
    obtain ⟨s6, e6, h6⟩ := fin (c := _) (s2 := s1) ((lose_ok e3).trans <| (lose_ok e4).trans <| lose_fail e5 (by decide)) h5
    exact ⟨0, s6, e6, h6, Or.inl ⟨rfl, Or.inl hgc⟩⟩

end Verif.Mem
