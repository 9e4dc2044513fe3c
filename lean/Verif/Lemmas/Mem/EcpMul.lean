import Verif.Lemmas.Mem.Ecp
import Verif.Lemmas.Ecp.Mul
/-! The sliding-window scalar multiplication in memory, when no allocation fails. -/
namespace Verif.Mem
open Verif.Mpi
open WeierstrassCurve WeierstrassCurve.Affine
open Verif.Ecp (curve)

variable {w : Nat}

theorem bit_val {ds : List Nat} (hd : Digits (2 ^ w) ds) {i j : Nat} (hi : i < ds.length) (hj : j < w) :
    val (2 ^ w) ds / 2 ^ (i * w + j) = 2 * (val (2 ^ w) ds / 2 ^ (i * w + j + 1)) + (if (ds[i] >>> j) &&& 1 ≠ 0 then 1 else 0) := by
  obtain ⟨c, e, h⟩ := Verif.Ecp.bitAt_spec hd hi hj
  unfold Verif.Ecp.bitAt at e
  rw [List.getElem?_eq_getElem hi] at e
  injection e with e
  rw [← e] at h
  have e2 : ((ds[i] >>> j) &&& 1 ≠ 0) ↔ ds[i].testBit j = true := by
    rw [Nat.testBit, bne_iff_ne, Nat.and_comm]
  rw [if_congr e2 rfl rfl]
  simpa using h

section
variable {K : Ctx} {E : Env} {S : Nat} {s : St} {q : Nat}

/-- `cry_ecp_init` of an object that owns nothing. -/
theorem ecpInit_calm (hw : DigitWidth w) (hK : K.Calm) (h : At K E S s) (hq : q + 2 < S)
    (ho : ∀ v, q ≤ v → v ≤ q + 2 → ∀ o, E v o → o.owns = 0) : ∃ s', ecpInit w q s = .ok (0, s') ∧ At K (But3 w E q 1 1 0) S s' := by
  have hw0 : 0 < w := by have := hw.pos; omega
  obtain ⟨st, s1, e1, h1⟩ := initListLoop_at (w := w) hw0 [q, q + 1, q + 2] [] s (E := E)
    (h.le fun v _ o ho => by unfold Sets; rw [if_neg (by simp)]; exact ho)
    (by intro a ha; simp at ha; omega) (by simp) (by
      intro a ha o hoa
      simp at ha
      exact ho a (by omega) (by omega) o hoa)
  obtain ⟨rfl, h2⟩ := h1.calm hK
  rw [List.nil_append] at h2
  have hS : ∀ v, q ≤ v → v ≤ q + 2 → Sets E [q, q + 1, q + 2] (V w 0 8) v = V w 0 8 := fun v h1 h2 => by
    unfold Sets; rw [if_pos (by simp; omega)]
  obtain ⟨s2, e2, h3⟩ := ecpSetZero_calm hw hK h2 hq
    ⟨by rw [hS q (by omega) (by omega)]; exact fun o h => h.any, by rw [hS (q + 1) (by omega) (by omega)]; exact fun o h => h.any,
      by rw [hS (q + 2) (by omega) (by omega)]; exact fun o h => h.any⟩
  refine ⟨s2, ?_, h3.le fun v hv o ho => ?_⟩
  · unfold ecpInit initList
    rw [chk_ok e1, e2]; rfl
  · unfold But3 at *
    by_cases g1 : v = q + 2
    · subst g1; rw [Function.update_self] at *; exact ho
    rw [Function.update_of_ne g1] at *
    by_cases g2 : v = q + 1
    · subst g2; rw [Function.update_self] at *; exact ho
    rw [Function.update_of_ne g2] at *
    by_cases g3 : v = q
    · subst g3; rw [Function.update_self] at *; exact ho
    rw [Function.update_of_ne g3] at *
    unfold Sets at ho
    rwa [if_neg (by simp; omega)] at ho

theorem pt3_but3 {x y z : Int} : Pt3 w (But3 w E q x y z) q :=
  ⟨by rw [But3.atX]; exact fun o h => h.any, by rw [But3.atY]; exact fun o h => h.any, by rw [But3.atZ]; exact fun o h => h.any⟩
theorem at3_but3 {x y z : Int} : At3 w (But3 w E q x y z) q x y z :=
  ⟨by rw [But3.atX]; exact fun o h => h.shows, by rw [But3.atY]; exact fun o h => h.shows, by rw [But3.atZ]; exact fun o h => h.shows⟩

theorem Pt3.congr {E' : Env} (h : Pt3 w E q) (he : ∀ v, q ≤ v → v ≤ q + 2 → E' v = E v) : Pt3 w E' q :=
  ⟨by rw [he q (by omega) (by omega)]; exact h.x, by rw [he (q + 1) (by omega) (by omega)]; exact h.y,
    by rw [he (q + 2) (by omega) (by omega)]; exact h.z⟩
theorem At3.congr {E' : Env} {x y z : Int} (h : At3 w E q x y z) (he : ∀ v, q ≤ v → v ≤ q + 2 → E' v = E v) : At3 w E' q x y z :=
  ⟨by rw [he q (by omega) (by omega)]; exact h.x, by rw [he (q + 1) (by omega) (by omega)]; exact h.y,
    by rw [he (q + 2) (by omega) (by omega)]; exact h.z⟩

/-- `cry_ecp_clear`. -/
theorem ecpClear_calm (h : At K E S s) (hq : q + 2 < S) (hP : Pt3 w E q) :
    ∃ s' E', ecpClear q s = .ok ((), s') ∧ At K E' S s' ∧ (∀ v, q ≤ v → v ≤ q + 2 → ∀ o, E' v o → o.owns = 0) ∧
      (∀ v, v < q ∨ q + 2 < v → E' v = E v) ∧ s.tick ≤ s'.tick := by
  obtain ⟨s', e, h', ht⟩ := clearList_at [q, q + 1, q + 2] E s h (by intro a ha; simp at ha; omega) (by
    intro a ha o ho
    simp only [List.mem_cons, List.not_mem_nil, or_false] at ha
    rcases ha with rfl | rfl | rfl
    · exact (hP.x o ho).clr
    · exact (hP.y o ho).clr
    · exact (hP.z o ho).clr)
  refine ⟨s', _, e, h', fun v h1 h2 o ho => ?_, fun v hv => ?_, ht⟩
  · unfold Sets at ho
    rw [if_pos (by simp; omega)] at ho
    rw [ho]; rfl
  · unfold Sets; rw [if_neg (by simp; omega)]

/-- The initialisation of the window. -/
theorem ecpWinInit_calm (hw : DigitWidth w) (hK : K.Calm) : ∀ (qs done : List Nat) (E : Env) (s : St), At K E S s →
    (∀ q ∈ qs, q + 2 < S ∧ ∀ v, q ≤ v → v ≤ q + 2 → ∀ o, E v o → o.owns = 0) → qs.Pairwise (fun a b => a + 2 < b ∨ b + 2 < a) →
    ∃ s' E', ecpWinInit w done qs s = .ok (0, s') ∧ At K E' S s' ∧ (∀ q ∈ qs, Pt3 w E' q) ∧
      (∀ v, (∀ q ∈ qs, v < q ∨ q + 2 < v) → E' v = E v)
  | [], done, E, s, h, _, _ => ⟨s, E, rfl, h, by simp, fun _ _ => rfl⟩
  | q :: qs, done, E, s, h, ho, hp => by
    rw [List.pairwise_cons] at hp
    obtain ⟨s1, e1, h1⟩ := ecpInit_calm hw hK h (ho q (by simp)).1 (ho q (by simp)).2
    obtain ⟨s2, E', e2, h2, h3, h4⟩ := ecpWinInit_calm hw hK qs (q :: done) _ s1 h1 (fun q' hq' => ⟨(ho q' (by simp [hq'])).1, fun v hv1 hv2 o hov => by
      have := hp.1 q' hq'
      rw [But3.ne (by omega)] at hov
      exact (ho q' (by simp [hq'])).2 v hv1 hv2 o hov⟩) hp.2
    refine ⟨s2, E', ?_, h2, fun q' hq' => ?_, fun v hv => ?_⟩
    · rw [ecpWinInit, bind_ok e1, if_neg (by decide)]; exact e2
    · rcases List.mem_cons.1 hq' with rfl | hq'
      · exact pt3_but3.congr fun v h1 h2 => h4 v fun q'' hq'' => by have := hp.1 q'' hq''; omega
      · exact h3 q' hq'
    · rw [h4 v fun q' hq' => hv q' (by simp [hq']), But3.ne (by have := hv q (by simp); omega)]

/-- Clearing points. -/
theorem ecpClearList_calm : ∀ (qs : List Nat) (E : Env) (s : St), At K E S s → (∀ q ∈ qs, q + 2 < S ∧ Pt3 w E q) →
    qs.Pairwise (fun a b => a + 2 < b ∨ b + 2 < a) →
    ∃ s' E', ecpClearList qs s = .ok ((), s') ∧ At K E' S s' ∧ (∀ q ∈ qs, ∀ v, q ≤ v → v ≤ q + 2 → ∀ o, E' v o → o.owns = 0) ∧
      (∀ v, (∀ q ∈ qs, v < q ∨ q + 2 < v) → E' v = E v) ∧ s.tick ≤ s'.tick
  | [], E, s, h, _, _ => ⟨s, E, rfl, h, by simp, fun _ _ => rfl, Nat.le_refl _⟩
  | q :: qs, E, s, h, ho, hp => by
    rw [List.pairwise_cons] at hp
    obtain ⟨s1, E1, e1, h1, c1, f1, t1⟩ := ecpClear_calm h (ho q (by simp)).1 (ho q (by simp)).2
    obtain ⟨s2, E', e2, h2, h3, h4, t2⟩ := ecpClearList_calm qs E1 s1 h1 (fun q' hq' => ⟨(ho q' (by simp [hq'])).1,
      (ho q' (by simp [hq'])).2.congr fun v hv1 hv2 => f1 v (by have := hp.1 q' hq'; omega)⟩) hp.2
    refine ⟨s2, E', ?_, h2, fun q' hq' => ?_, fun v hv => ?_, t1.trans t2⟩
    · rw [ecpClearList, bind_ok e1]; exact e2
    · rcases List.mem_cons.1 hq' with rfl | hq'
      · intro v hv1 hv2
        rw [h4 v fun q'' hq'' => by have := hp.1 q'' hq''; omega]
        exact c1 v hv1 hv2
      · exact h3 q' hq'
    · rw [h4 v fun q' hq' => hv q' (by simp [hq']), f1 v (hv q (by simp))]

/-- Exchange of two points. -/
theorem ecpSwap_at {a b : Nat} (h : At K E S s) (ha : a + 2 < S) (hb : b + 2 < S) (hab : a + 2 < b) :
    ∃ s' E', ecpSwap a b s = .ok ((), s') ∧ At K E' S s' ∧ (∀ i, i ≤ 2 → E' (a + i) = E (b + i) ∧ E' (b + i) = E (a + i)) ∧
      (∀ v, (v < a ∨ a + 2 < v) → (v < b ∨ b + 2 < v) → E' v = E v) := by
  obtain ⟨u1, s1, e1, h1⟩ := swap_at h (a := a) (b := b) (by omega) (by omega)
  obtain ⟨u2, s2, e2, h2⟩ := swap_at h1 (a := a + 1) (b := b + 1) (by omega) (by omega)
  obtain ⟨u3, s3, e3, h3⟩ := swap_at h2 (a := a + 2) (b := b + 2) (by omega) (by omega)
  refine ⟨s3, _, ?_, h3, fun i hi => ?_, fun v h1 h2 => ?_⟩
  · unfold ecpSwap; rw [bind_ok e1, bind_ok e2, e3]
  · have : i = 0 ∨ i = 1 ∨ i = 2 := by omega
    rcases this with rfl | rfl | rfl <;> constructor <;> simp only [Function.update_apply, Nat.add_zero] <;>
      (repeat (first | rw [if_pos (by first | trivial | omega)] | rw [if_neg (by omega)]))
  · simp only [Function.update_apply]
    repeat rw [if_neg (by omega)]

end

/-- The object at `q` holds the `c`-th multiple of `P`. -/
def Mult (w p : Nat) {a b : ZMod p} (P : (curve p a b).Point) [Fact p.Prime] (R : Prop) (E : Env) (q c : Nat) : Prop :=
  ∃ x y z, At3 w E q x y z ∧ OnPt x y z (c • P) ∧ (R → RedPt p x y z)

section
variable {p : Nat} {a b : ZMod p} [Fact p.Prime] {P : (curve p a b).Point} {R F : Prop}
variable {K : Ctx} {A E : Env} {S sp g : Nat} {za : Int} {s : St}

theorem Mult.congr {E' : Env} {q c : Nat} (h : Mult w p P R E q c) (he : ∀ v, q ≤ v → v ≤ q + 2 → E' v = E v) : Mult w p P R E' q c := by
  obtain ⟨x, y, z, h1, h2⟩ := h
  exact ⟨x, y, z, h1.congr he, h2⟩

theorem GrpAt.congr {E' : Env} (h : GrpAt w p a b E g za) (h0 : E' g = E g) (h1 : E' (g + 1) = E (g + 1)) : GrpAt w p a b E' g za :=
  ⟨by rw [h0]; exact h.modulus, by rw [h1]; exact h.coef, h.val⟩

/-- One doubling. -/
theorem dbl_step (hw : DigitWidth w) (hK : K.Calm) (hF : F ∨ ∀ k : Nat, k • P + k • P = 0 → k • P = 0) {d q c : Nat} (h : At K E S s)
    (hq : q + 2 < S) (hg : g + 1 < S) (hd : d + 2 < S) (hdq : d = q ∨ d + 2 < q ∨ q + 2 < d) (hD : Pt3 w E d) (hG : GrpAt w p a b E g za)
    (hm : Mult w p P R E q c) :
    (F ∧ ∃ s', ecpDbl w S d q g s = .ok (-1, s') ∧ At K E S s') ∨
    ∃ s' E', ecpDbl w S d q g s = .ok (0, s') ∧ At K E' S s' ∧ Mult w p P R E' d (2 * c) ∧ Pt3 w E' d ∧ (∀ v, v < d ∨ d + 2 < v → E' v = E v) := by
  obtain ⟨x, y, z, h1, h2, h3⟩ := hm
  obtain ⟨k1, k2⟩ := ecpDbl_calm hw hK h hq hg hd hdq hD h1 hG h2
  by_cases hne : c • P = 0 ∨ c • P + c • P ≠ 0
  · obtain ⟨s', x', y', z', e, g1, g2, g3⟩ := k1 hne
    exact Or.inr ⟨s', _, e, g3, ⟨x', y', z', at3_but3, by rwa [two_mul, add_nsmul], fun r => g2 (h3 r)⟩, pt3_but3,
      fun v hv => But3.ne (by omega)⟩
  · simp only [not_or, not_not] at hne
    obtain ⟨s', e, g1⟩ := k2 hne
    exact Or.inl ⟨hF.resolve_right fun hF => hne.1 (hF c hne.2), s', e, g1⟩

/-- One addition. -/
theorem add_step (hw : DigitWidth w) (hK : K.Calm) (hF : F ∨ ∀ k : Nat, k • P + k • P = 0 → k • P = 0) {d q r c c' : Nat} (h : At K E S s)
    (hq : q + 2 < S) (hr : r + 2 < S) (hg : g + 1 < S) (hd : d + 2 < S) (hdq : d = q ∨ d + 2 < q ∨ q + 2 < d)
    (hdr : d = r ∨ d + 2 < r ∨ r + 2 < d) (hD : Pt3 w E d) (hG : GrpAt w p a b E g za)
    (hm : Mult w p P R E q c) (hm' : Mult w p P R E r c') :
    (F ∧ ∃ s', ecpAdd w S d q r g s = .ok (-1, s') ∧ At K E S s') ∨
    ∃ s' E', ecpAdd w S d q r g s = .ok (0, s') ∧ At K E' S s' ∧ Mult w p P R E' d (c + c') ∧ Pt3 w E' d ∧ (∀ v, v < d ∨ d + 2 < v → E' v = E v) := by
  obtain ⟨x, y, z, h1, h2, h3⟩ := hm
  obtain ⟨x2, y2, z2, j1, j2, j3⟩ := hm'
  obtain ⟨k1, k2⟩ := ecpAdd_calm hw hK h hq hr hg hd hdq hdr hD h1 j1 hG h2 j2
  by_cases hne : c • P = c' • P ∧ c • P ≠ 0 ∧ c • P + c • P = 0
  · obtain ⟨s', e, g1⟩ := k2 hne
    exact Or.inl ⟨hF.resolve_right fun hF => hne.2.1 (hF c hne.2.2), s', e, g1⟩
  · obtain ⟨s', x', y', z', e, g1, g2, g3⟩ := k1 hne
    exact Or.inr ⟨s', _, e, g3, ⟨x', y', z', at3_but3, by rwa [add_nsmul], fun r => g2 (h3 r) (j3 r)⟩, pt3_but3,
      fun v hv => But3.ne (by omega)⟩

/-- The callers' objects are as before, and the local points are numbers. -/
structure Fr (w sp : Nat) (A E : Env) : Prop where
  lo : ∀ v, v < sp → E v = A v
  pt : ∀ i, i < 9 → Pt3 w E (sp + 3 * i)

/-- The loop invariant. -/
structure LI (w p : Nat) {a b : ZMod p} (P : (curve p a b).Point) [Fact p.Prime] (R : Prop) (sp : Nat) (A E : Env) (c : Nat) (paf : Bool) : Prop extends Fr w sp A E where
  win : ∀ i, i < 8 → Mult w p P R E (sp + 3 + 3 * i) (8 + i)
  acc : Mult w p P R E sp c
  fst : paf = true → c = 0

/-- Assigning to one of the local points. -/
theorem Fr.set {E' : Env} {i : Nat} (h : Fr w sp A E) (hi : i < 9) (hP : Pt3 w E' (sp + 3 * i)) (he : ∀ v, v < sp + 3 * i ∨ sp + 3 * i + 2 < v → E' v = E v) :
    Fr w sp A E' := by
  refine ⟨fun v hv => by rw [he v (by omega)]; exact h.lo v hv, fun k hk => ?_⟩
  by_cases hki : k = i
  · subst hki; exact hP
  · exact (h.pt k hk).congr fun v h1 h2 => he v (by omega)

theorem LI.set {E' : Env} {c c' : Nat} {paf paf' : Bool} (h : LI w p P R sp A E c paf) (hP : Pt3 w E' sp) (hm : Mult w p P R E' sp c')
    (he : ∀ v, v < sp ∨ sp + 2 < v → E' v = E v) (hf : paf' = true → c' = 0) : LI w p P R sp A E' c' paf' :=
  { toFr := h.toFr.set (i := 0) (by omega) hP (by simpa using he)
    win := fun i hi => (h.win i hi).congr fun v h1 h2 => he v (by omega)
    acc := hm
    fst := hf }

theorem dblUnless_calm (hw : DigitWidth w) (hK : K.Calm) (hF : F ∨ ∀ k : Nat, k • P + k • P = 0 → k • P = 0) {c : Nat} {paf : Bool}
    (h : At K E (sp + 27) s) (hg : g + 1 < sp) (hG : GrpAt w p a b A g za) (hL : LI w p P R sp A E c paf) :
    (F ∧ ∃ s' E', ecpDblUnless w sp g paf s = .ok (-1, s') ∧ At K E' (sp + 27) s' ∧ Fr w sp A E') ∨
    ∃ s' E', ecpDblUnless w sp g paf s = .ok (0, s') ∧ At K E' (sp + 27) s' ∧ LI w p P R sp A E' (2 * c) paf := by
  unfold ecpDblUnless
  cases paf with
  | true => exact Or.inr ⟨s, E, rfl, h, by have := hL.fst rfl; subst this; exact hL⟩
  | false =>
    rw [if_neg (by simp)]
    rcases dbl_step hw hK hF (g := g) (za := za) h (d := sp) (q := sp) (by omega) (by omega) (by omega) (Or.inl rfl) (hL.pt 0 (by omega))
      (hG.congr (hL.lo _ (by omega)) (hL.lo _ (by omega))) hL.acc with ⟨hf, s', e, h'⟩ | ⟨s', E', e, h', m, t, f⟩
    · exact Or.inl ⟨hf, s', E, e, h', hL.toFr⟩
    · exact Or.inr ⟨s', E', e, h', hL.set t m f (by simp)⟩

theorem addOrCopy_calm (hw : DigitWidth w) (hK : K.Calm) (hF : F ∨ ∀ k : Nat, k • P + k • P = 0 → k • P = 0) {c c' q : Nat} {paf : Bool}
    (h : At K E (sp + 27) s) (hg : g + 1 < sp) (hG : GrpAt w p a b A g za) (hL : LI w p P R sp A E c paf)
    (hq : q + 2 < sp + 27) (hqs : q + 2 < sp ∨ sp + 2 < q) (hm : Mult w p P R E q c') :
    (F ∧ ∃ s' E', ecpAddOrCopy w sp q g paf s = .ok (-1, s') ∧ At K E' (sp + 27) s' ∧ Fr w sp A E') ∨
    ∃ s' E', ecpAddOrCopy w sp q g paf s = .ok (0, s') ∧ At K E' (sp + 27) s' ∧ LI w p P R sp A E' (c + c') false := by
  unfold ecpAddOrCopy
  cases paf with
  | true =>
    rw [if_pos rfl]
    have := hL.fst rfl
    subst this
    obtain ⟨x, y, z, h1, h2, h3⟩ := hm
    obtain ⟨s', e, h'⟩ := ecpCopy_calm hK h (d := sp) (by omega) hq (hL.pt 0 (by omega)) h1 (by omega)
    exact Or.inr ⟨s', _, e, h', hL.set pt3_but3 ⟨x, y, z, at3_but3, by rwa [Nat.zero_add], h3⟩ (fun v hv => But3.ne (by omega)) (by simp)⟩
  | false =>
    rw [if_neg (by simp)]
    rcases add_step hw hK hF (g := g) (za := za) h (d := sp) (q := sp) (r := q) (by omega) hq (by omega) (by omega) (Or.inl rfl) (by omega) (hL.pt 0 (by omega))
      (hG.congr (hL.lo _ (by omega)) (hL.lo _ (by omega))) hL.acc hm with ⟨hf, s', e, h'⟩ | ⟨s', E', e, h', m, t, f⟩
    · exact Or.inl ⟨hf, s', E, e, h', hL.toFr⟩
    · exact Or.inr ⟨s', E', e, h', hL.set t m f (by simp)⟩

/-- Reading a digit of the scalar. -/
theorem rd_scalar {kk i : Nat} {ds : List Nat} (hk : ∀ o, A kk o → ∃ n, o.Reads ⟨n, ds⟩) (h : At K E S s) (hS : kk < S) (hE : E kk = A kk)
    (hi : i < ds.length) : rd kk i s = .ok (ds[i], s) := by
  obtain ⟨n, hn⟩ := hk _ (by have := h.objs kk hS; rwa [hE] at this)
  rw [rd_run hn hi]
  congr 2
  simp [Mpi.dig, hi]

theorem ecpWindow_calm (hw : DigitWidth w) (hK : K.Calm) (hF : F ∨ ∀ k : Nat, k • P + k • P = 0 → k • P = 0) {kk : Nat} {ds : List Nat}
    (hd : Digits (2 ^ w) ds) (hk : ∀ o, A kk o → ∃ n, o.Reads ⟨n, ds⟩) (hkk : kk < sp) (hg : g + 1 < sp) (hG : GrpAt w p a b A g za)
    {paf : Bool} (k : Nat → Nat → Nat → M Int) : ∀ (t fuel i j v c : Nat) (E : Env) (s : St), At K E (sp + 27) s →
    t < fuel → t ≤ 3 → 2 ^ (3 - t) ≤ v → v < 2 ^ (4 - t) → i < ds.length → j ≤ w → t ≤ i * w + j → LI w p P R sp A E c paf →
    c + v = val (2 ^ w) ds / 2 ^ (i * w + j) →
    (F ∧ ∃ s' E', ecpWindow w sp g kk paf k fuel i j v s = .ok (-1, s') ∧ At K E' (sp + 27) s' ∧ Fr w sp A E') ∨
    ∃ s' E' v' i' j' c', ecpWindow w sp g kk paf k fuel i j v s = k v' i' j' s' ∧ At K E' (sp + 27) s' ∧ 8 ≤ v' ∧ v' < 16 ∧
      i' < ds.length ∧ j' ≤ w ∧ LI w p P R sp A E' c' paf ∧ c' + v' = val (2 ^ w) ds / 2 ^ (i' * w + j') ∧
      i' * (w + 1) + j' ≤ i * (w + 1) + j
  | 0, fuel + 1, i, j, v, c, E, s, h, _, _, hv1, hv2, hi, hj, _, hr, he => by
    refine Or.inr ⟨s, E, v, i, j, c, ?_, h, by omega, by omega, hi, hj, hr, he, Nat.le_refl _⟩
    rw [ecpWindow, if_neg (by omega)]
  | t + 1, fuel + 1, i, j, v, c, E, s, h, hf, hs, hv1, hv2, hi, hj, hp, hr, he => by
    have hv8 : v < 8 := by
      have : 2 ^ (4 - (t + 1)) ≤ 2 ^ 3 := Nat.pow_le_pow_right (by omega) (by omega)
      omega
    have h0 : ¬ (j = 0 ∧ i = 0) := by rintro ⟨rfl, rfl⟩; omega
    have hw8 : 8 ≤ w := hw.pos
    rw [ecpWindow, if_pos hv8, if_neg h0]
    set i' := if j = 0 then i - 1 else i with hi'
    set j' := (if j = 0 then w else j) - 1 with hj'
    have hpos : i' * w + j' + 1 = i * w + j ∧ j' < w ∧ i' < ds.length ∧ i' * (w + 1) + j' ≤ i * (w + 1) + j := by
      by_cases hj0 : j = 0
      · subst hj0
        simp only [if_true] at hi' hj'
        obtain ⟨k, rfl⟩ : ∃ k, i = k + 1 := ⟨i - 1, by omega⟩
        simp only [Nat.add_sub_cancel] at hi'
        rw [hi', hj', Nat.succ_mul, Nat.succ_mul]
        omega
      · simp only [hj0, if_false] at hi' hj'
        rw [hi', hj']; omega
    obtain ⟨hp0, hpj, hpi, hpm⟩ := hpos
    rcases dblUnless_calm hw hK hF h hg hG hr with ⟨hF, s1, E1, e1, h1, f1⟩ | ⟨s1, E1, e1, h1, l1⟩
    · exact Or.inl ⟨hF, s1, E1, chk_fail e1 (by decide), h1, f1⟩
    have h2 := bit_val hd hpi hpj
    have hv : 2 ^ (3 - t) = 2 * 2 ^ (3 - (t + 1)) ∧ 2 ^ (4 - t) = 2 * 2 ^ (4 - (t + 1)) := by
      constructor <;> rw [← pow_succ'] <;> congr 1 <;> omega
    rw [hp0] at h2
    rw [chk_ok e1, bind_ok (rd_scalar hk h1 (by omega) (l1.lo _ hkk) hpi)]
    rcases ecpWindow_calm hw hK hF hd hk hkk hg hG k t fuel i' j'
      (2 * v + (if (ds[i'] >>> j') &&& 1 ≠ 0 then 1 else 0)) (2 * c) E1 s1 h1 (by omega) (by omega) (by split <;> omega) (by split <;> omega) hpi
      (by omega) (by omega) l1 (by rw [h2, ← he]; ring) with hF | ⟨s', E', v', i'', j'', c', g1, g0, g2, g3, g4, g5, g6, g7, g8⟩
    · exact Or.inl hF
    exact Or.inr ⟨s', E', v', i'', j'', c', g1, g0, g2, g3, g4, g5, g6, g7, by omega⟩

theorem ecpMulLoop_calm (hw : DigitWidth w) (hK : K.Calm) (hF : F ∨ ∀ k : Nat, k • P + k • P = 0 → k • P = 0) {kk p1 : Nat} {ds : List Nat}
    (hd : Digits (2 ^ w) ds) (hk : ∀ o, A kk o → ∃ n, o.Reads ⟨n, ds⟩) (hkk : kk < sp) (hg : g + 1 < sp) (hG : GrpAt w p a b A g za)
    (hp1 : p1 + 2 < sp) (hm1 : Mult w p P R A p1 1) : ∀ (fuel i j : Nat) (paf : Bool) (E : Env) (s : St), At K E (sp + 27) s →
    i * (w + 1) + j < fuel → j ≤ w → (j = 0 ∧ i ≤ ds.length ∨ i < ds.length) →
    LI w p P R sp A E (val (2 ^ w) ds / 2 ^ (i * w + j)) paf →
    (F ∧ ∃ s' E', ecpMulLoop w sp p1 g kk fuel i j paf s = .ok (-1, s') ∧ At K E' (sp + 27) s' ∧ Fr w sp A E') ∨
    ∃ s' E' paf', ecpMulLoop w sp p1 g kk fuel i j paf s = .ok (0, s') ∧ At K E' (sp + 27) s' ∧ LI w p P R sp A E' (val (2 ^ w) ds) paf'
  | 0, i, j, paf, E, s, _, hf, _, _, _ => absurd hf (by omega)
  | fuel + 1, i, 0, paf, E, s, h, hf, hj, hi, hr => by
    rw [ecpMulLoop]
    by_cases h0 : i = 0
    · subst h0
      rw [if_pos rfl]
      exact Or.inr ⟨s, E, paf, rfl, h, by simpa using hr⟩
    · rw [if_neg h0]
      obtain ⟨k, rfl⟩ : ∃ k, i = k + 1 := ⟨i - 1, by omega⟩
      rw [Nat.succ_mul] at hf
      refine ecpMulLoop_calm hw hK hF hd hk hkk hg hG hp1 hm1 fuel k w paf E s h (by omega) (Nat.le_refl _) (Or.inr (by omega)) ?_
      rw [← Nat.succ_mul]; exact hr
  | fuel + 1, i, j + 1, paf, E, s, h, hf, hj, hi, hr => by
    have hi : i < ds.length := by omega
    have hw8 : 8 ≤ w := hw.pos
    rw [ecpMulLoop]
    rcases dblUnless_calm hw hK hF h hg hG hr with ⟨hF, s1, E1, e1, h1, f1⟩ | ⟨s1, E1, e1, h1, l1⟩
    · exact Or.inl ⟨hF, s1, E1, chk_fail e1 (by decide), h1, f1⟩
    have h2 := bit_val hd hi (show j < w by omega)
    rw [chk_ok e1, bind_ok (rd_scalar hk h1 (by omega) (l1.lo _ hkk) hi)]
    rw [← Nat.add_assoc] at l1
    by_cases hb : (ds[i] >>> j) &&& 1 ≠ 0
    · rw [if_pos hb] at h2 ⊢
      by_cases hc : i ≠ 0 ∨ j ≥ 3
      · rw [if_pos hc]
        have hp : 3 ≤ i * w + j := by
          rcases hc with hc | hc
          · have := Nat.mul_le_mul (show 1 ≤ i by omega) hw8; omega
          · omega
        rcases ecpWindow_calm hw hK hF hd hk hkk hg hG (fun v i j =>
            chk (ecpAddOrCopy w sp (sp + 3 + 3 * (v &&& 7)) g paf) (ecpMulLoop w sp p1 g kk fuel i j false)) 3 4 i j 1
          (2 * (val (2 ^ w) ds / 2 ^ (i * w + j + 1))) E1 s1 h1 (by omega) (by omega) (by norm_num) (by norm_num) hi (by omega) hp l1
          h2.symm with hF | ⟨s', E', v', i', j', c', g1, g0, g2, g3, g4, g5, g6, g7, g8⟩
        · exact Or.inl hF
        rw [g1]
        have hv : v' &&& 7 = v' - 8 := by
          rw [show 7 = 2 ^ 3 - 1 from rfl, Nat.and_two_pow_sub_one_eq_mod]; omega
        rw [hv]
        have hwn := g6.win (v' - 8) (by omega)
        rw [show 8 + (v' - 8) = v' by omega] at hwn
        rcases addOrCopy_calm hw hK hF g0 hg hG g6 (q := sp + 3 + 3 * (v' - 8)) (by omega) (by omega) hwn with
          ⟨hF, s2, E2, e2, h3, f3⟩ | ⟨s2, E2, e2, h3, l3⟩
        · exact Or.inl ⟨hF, s2, E2, chk_fail e2 (by decide), h3, f3⟩
        rw [chk_ok e2]
        rw [g7] at l3
        exact ecpMulLoop_calm hw hK hF hd hk hkk hg hG hp1 hm1 fuel i' j' false E2 s2 h3 (by omega) g5 (Or.inr g4) l3
      · rw [if_neg hc]
        rcases addOrCopy_calm hw hK hF h1 hg hG l1 (q := p1) (by omega) (by omega) (hm1.congr fun v _ hv => l1.lo v (by omega)) with
          ⟨hF, s2, E2, e2, h3, f3⟩ | ⟨s2, E2, e2, h3, l3⟩
        · exact Or.inl ⟨hF, s2, E2, chk_fail e2 (by decide), h3, f3⟩
        rw [chk_ok e2]
        rw [← h2] at l3
        exact ecpMulLoop_calm hw hK hF hd hk hkk hg hG hp1 hm1 fuel i j false E2 s2 h3 (by omega) (by omega) (Or.inr hi) l3
    · rw [if_neg hb] at h2 ⊢
      rw [Nat.add_zero] at h2
      rw [← h2] at l1
      exact ecpMulLoop_calm hw hK hF hd hk hkk hg hG hp1 hm1 fuel i j paf E1 s1 h1 (by omega) (by omega) (Or.inr hi) l1

/-- The first `n` points of the window are filled. -/
structure WinI (w p : Nat) {a b : ZMod p} (P : (curve p a b).Point) [Fact p.Prime] (R : Prop) (sp : Nat) (A E : Env) (n : Nat) : Prop extends Fr w sp A E where
  win : ∀ i, i < n → Mult w p P R E (sp + 3 + 3 * i) (8 + i)
  acc : Mult w p P R E sp 0

theorem win_step (hw : DigitWidth w) (hK : K.Calm) (hF : F ∨ ∀ k : Nat, k • P + k • P = 0 → k • P = 0) {n p1 d q : Nat}
    (hg : g + 1 < sp) (hG : GrpAt w p a b A g za) (hp1 : p1 + 2 < sp) (hm1 : Mult w p P R A p1 1)
    (h : At K E (sp + 27) s) (hW : WinI w p P R sp A E (n + 1)) (hn : n < 7) (hd : d = sp + 3 + 3 * (n + 1)) (hq : q = sp + 3 + 3 * n) :
    (F ∧ ∃ s' E', ecpAdd w (sp + 27) d q p1 g s = .ok (-1, s') ∧ At K E' (sp + 27) s' ∧ Fr w sp A E') ∨
    ∃ s' E', ecpAdd w (sp + 27) d q p1 g s = .ok (0, s') ∧ At K E' (sp + 27) s' ∧ WinI w p P R sp A E' (n + 2) := by
  subst hd hq
  have hpt := hW.pt (n + 2) (by omega)
  rw [show sp + 3 * (n + 2) = sp + 3 + 3 * (n + 1) by omega] at hpt
  rcases add_step hw hK hF (g := g) (za := za) h (d := sp + 3 + 3 * (n + 1)) (q := sp + 3 + 3 * n) (r := p1) (by omega) (by omega) (by omega) (by omega)
    (by omega) (by omega) hpt
    (hG.congr (hW.lo _ (by omega)) (hW.lo _ (by omega))) (hW.win n (by omega)) (hm1.congr fun v _ hv => hW.lo v (by omega))
    with ⟨hf, s', e, h'⟩ | ⟨s', E', e, h', m, t, f⟩
  · exact Or.inl ⟨hf, s', E, e, h', hW.toFr⟩
  · refine Or.inr ⟨s', E', e, h', { toFr := hW.toFr.set (i := n + 2) (by omega) ?_ fun v hv => f v (by omega), win := fun i hi => ?_, acc := ?_ }⟩
    · rw [show sp + 3 * (n + 2) = sp + 3 + 3 * (n + 1) by omega]; exact t
    · by_cases hin : i = n + 1
      · subst hin
        rw [show 8 + n + 1 = 8 + (n + 1) by omega] at m
        exact m
      · exact (hW.win i (by omega)).congr fun v h1 h2 => f v (by omega)
    · exact hW.acc.congr fun v h1 h2 => f v (by omega)

theorem ecpMulBody_calm (hw : DigitWidth w) (hK : K.Calm) (hF : F ∨ ∀ k : Nat, k • P + k • P = 0 → k • P = 0) {kk p1 pr : Nat} {ds : List Nat}
    (hd : Digits (2 ^ w) ds) (hk : ∀ o, A kk o → ∃ n, o.Reads ⟨n, ds⟩) (hkk : kk < sp) (hg : g + 1 < sp) (hG : GrpAt w p a b A g za)
    (hp1 : p1 + 2 < sp) (hpr : pr + 2 < sp) (hpa : Pt3 w A pr) (hm1 : Mult w p P R A p1 1) (h : At K E (sp + 27) s) (hfr : Fr w sp A E)
    (h0 : Mult w p P R E sp 0) :
    (F ∧ ∃ s' E', ecpMulBody w sp pr p1 kk g s = .ok (-1, s') ∧ At K E' (sp + 27) s' ∧ Fr w sp A E') ∨
    ∃ s' E' x y z, ecpMulBody w sp pr p1 kk g s = .ok (0, s') ∧ At K E' (sp + 27) s' ∧ Fr w sp (But3 w A pr x y z) E' ∧
      OnPt x y z (val (2 ^ w) ds • P) ∧ (R → RedPt p x y z) := by
  unfold ecpMulBody
  -- 1P, 2P, 4P, 8P
  obtain ⟨x, y, z, a1, a2, a3⟩ := hm1.congr (E' := E) fun v _ hv => hfr.lo v (by omega)
  obtain ⟨s1, e1, h1⟩ := ecpCopy_calm hK h (d := sp + 3) (by omega) (by omega) (hfr.pt 1 (by omega)) a1 (by omega)
  have f1 : Fr w sp A (But3 w E (sp + 3) x y z) := hfr.set (i := 1) (by omega) pt3_but3 fun v hv => But3.ne (by omega)
  have m1 : Mult w p P R (But3 w E (sp + 3) x y z) (sp + 3) 1 := ⟨x, y, z, at3_but3, a2, a3⟩
  have b1 : Mult w p P R (But3 w E (sp + 3) x y z) sp 0 := h0.congr fun v h1 h2 => But3.ne (by omega)
  rw [chk_ok e1]
  have dbl : ∀ {c : Nat} {E1 : Env} {s1 : St}, At K E1 (sp + 27) s1 → Fr w sp A E1 → Mult w p P R E1 (sp + 3) c → Mult w p P R E1 sp 0 →
      (F ∧ ∃ s', ecpDbl w (sp + 27) (sp + 3) (sp + 3) g s1 = .ok (-1, s') ∧ At K E1 (sp + 27) s') ∨
      ∃ s' E', ecpDbl w (sp + 27) (sp + 3) (sp + 3) g s1 = .ok (0, s') ∧ At K E' (sp + 27) s' ∧ Fr w sp A E' ∧
        Mult w p P R E' (sp + 3) (2 * c) ∧ Mult w p P R E' sp 0 := by
    intro c E1 s1 h1 f1 m1 b1
    rcases dbl_step hw hK hF (g := g) (za := za) h1 (d := sp + 3) (q := sp + 3) (by omega) (by omega) (by omega) (Or.inl rfl) (f1.pt 1 (by omega))
      (hG.congr (f1.lo _ (by omega)) (f1.lo _ (by omega))) m1 with hf | ⟨s', E', e, h', m, t, f⟩
    · exact Or.inl hf
    · exact Or.inr ⟨s', E', e, h', f1.set (i := 1) (by omega) t fun v hv => f v (by omega), m, b1.congr fun v h1 h2 => f v (by omega)⟩
  rcases dbl h1 f1 m1 b1 with ⟨hf, s2, e2, h2⟩ | ⟨s2, E2, e2, h2, f2, m2, b2⟩
  · exact Or.inl ⟨hf, s2, _, chk_fail e2 (by decide), h2, f1⟩
  rw [chk_ok e2]
  rcases dbl h2 f2 m2 b2 with ⟨hf, s3, e3, h3⟩ | ⟨s3, E3, e3, h3, f3, m3, b3⟩
  · exact Or.inl ⟨hf, s3, _, chk_fail e3 (by decide), h3, f2⟩
  rw [chk_ok e3]
  rcases dbl h3 f3 m3 b3 with ⟨hf, s4, e4, h4⟩ | ⟨s4, E4, e4, h4, f4, m4, b4⟩
  · exact Or.inl ⟨hf, s4, _, chk_fail e4 (by decide), h4, f3⟩
  rw [chk_ok e4]
  have w0 : WinI w p P R sp A E4 (0 + 1) := by
    refine { toFr := f4, acc := b4, win := fun i hi => ?_ }
    have : i = 0 := by omega
    subst this; exact m4
  rcases win_step hw hK hF hg hG hp1 hm1 h4 w0 (d := sp + 6) (q := sp + 3) (by omega) rfl rfl with ⟨hf, s5, E5, e5, h5, f5⟩ | ⟨s5, E5, e5, h5, w1⟩
  · exact Or.inl ⟨hf, s5, E5, chk_fail e5 (by decide), h5, f5⟩
  rw [chk_ok e5]
  rcases win_step hw hK hF hg hG hp1 hm1 h5 w1 (d := sp + 9) (q := sp + 6) (by omega) rfl rfl with ⟨hf, s6, E6, e6, h6, f6⟩ | ⟨s6, E6, e6, h6, w2⟩
  · exact Or.inl ⟨hf, s6, E6, chk_fail e6 (by decide), h6, f6⟩
  rw [chk_ok e6]
  rcases win_step hw hK hF hg hG hp1 hm1 h6 w2 (d := sp + 12) (q := sp + 9) (by omega) rfl rfl with ⟨hf, s7, E7, e7, h7, f7⟩ | ⟨s7, E7, e7, h7, w3⟩
  · exact Or.inl ⟨hf, s7, E7, chk_fail e7 (by decide), h7, f7⟩
  rw [chk_ok e7]
  rcases win_step hw hK hF hg hG hp1 hm1 h7 w3 (d := sp + 15) (q := sp + 12) (by omega) rfl rfl with ⟨hf, s8, E8, e8, h8, f8⟩ | ⟨s8, E8, e8, h8, w4⟩
  · exact Or.inl ⟨hf, s8, E8, chk_fail e8 (by decide), h8, f8⟩
  rw [chk_ok e8]
  rcases win_step hw hK hF hg hG hp1 hm1 h8 w4 (d := sp + 18) (q := sp + 15) (by omega) rfl rfl with ⟨hf, s9, E9, e9, h9, f9⟩ | ⟨s9, E9, e9, h9, w5⟩
  · exact Or.inl ⟨hf, s9, E9, chk_fail e9 (by decide), h9, f9⟩
  rw [chk_ok e9]
  rcases win_step hw hK hF hg hG hp1 hm1 h9 w5 (d := sp + 21) (q := sp + 18) (by omega) rfl rfl with ⟨hf, s10, E10, e10, h10, f10⟩ | ⟨s10, E10, e10, h10, w6⟩
  · exact Or.inl ⟨hf, s10, E10, chk_fail e10 (by decide), h10, f10⟩
  rw [chk_ok e10]
  rcases win_step hw hK hF hg hG hp1 hm1 h10 w6 (d := sp + 24) (q := sp + 21) (by omega) rfl rfl with ⟨hf, s11, E11, e11, h11, f11⟩ | ⟨s11, E11, e11, h11, w7⟩
  · exact Or.inl ⟨hf, s11, E11, chk_fail e11 (by decide), h11, f11⟩
  rw [chk_ok e11]
  -- the loops
  obtain ⟨n, hn⟩ := hk _ (by have := h11.objs kk (by omega); rwa [w7.lo _ hkk] at this)
  obtain ⟨al, hh, -⟩ := id hn
  rw [bind_ok (hdr_ok hh)]
  have hs : val (2 ^ w) ds / 2 ^ (ds.length * w + 0) = 0 := by
    apply Nat.div_eq_of_lt
    have := val_lt hd
    rwa [← pow_mul, Nat.mul_comm w] at this
  rcases ecpMulLoop_calm hw hK hF hd hk hkk hg hG hp1 hm1 (ds.length * (w + 1) + 1) ds.length 0 true E11 s11 h11
    (by omega) (by omega) (Or.inl ⟨rfl, Nat.le_refl _⟩) { toFr := w7.toFr, win := w7.win, acc := by rw [hs]; exact w7.acc, fst := fun _ => hs } with
    ⟨hf, s12, E12, e12, h12, f12⟩ | ⟨s12, E12, paf, e12, h12, l12⟩
  · exact Or.inl ⟨hf, s12, E12, chk_fail e12 (by decide), h12, f12⟩
  obtain ⟨x', y', z', c1, c2, c3⟩ := l12.acc
  have h13 := at_self (q := sp) h12 (by omega) (l12.pt 0 (by omega)) c1
  obtain ⟨s14, E14, e14, h14, sw, same⟩ := ecpSwap_at h13 (a := pr) (b := sp) (by omega) (by omega) (by omega)
  refine Or.inr ⟨s14, E14, x', y', z', ?_, h14, ⟨fun v hv => ?_, fun i hi => ?_⟩, c2, c3⟩
  · rw [chk_ok e12, bind_ok e14]; rfl
  · by_cases hvp : v < pr ∨ pr + 2 < v
    · rw [same v hvp (by omega), But3.ne (by omega), But3.ne (by omega)]; exact l12.lo v hv
    · obtain rfl | rfl | rfl : v = pr ∨ v = pr + 1 ∨ v = pr + 2 := by omega
      · rw [But3.atX]; have := (sw 0 (by omega)).1; rw [Nat.add_zero, Nat.add_zero, But3.atX] at this; exact this
      · rw [But3.atY, (sw 1 (by omega)).1, But3.atY]
      · rw [But3.atZ, (sw 2 (by omega)).1, But3.atZ]
  · by_cases hi0 : i = 0
    · subst hi0
      have lo : ∀ j, j ≤ 2 → But3 w E12 sp x' y' z' (pr + j) = A (pr + j) := fun j hj => by
        rw [But3.ne (by omega)]; exact l12.lo _ (by omega)
      refine ⟨?_, ?_, ?_⟩
      · have := (sw 0 (by omega)).2
        rw [lo 0 (by omega)] at this
        have e : E14 (sp + 3 * 0) = A pr := this
        rw [e]; exact hpa.x
      · have := (sw 1 (by omega)).2
        rw [lo 1 (by omega)] at this
        have e : E14 (sp + 3 * 0 + 1) = A (pr + 1) := this
        rw [e]; exact hpa.y
      · have := (sw 2 (by omega)).2
        rw [lo 2 (by omega)] at this
        have e : E14 (sp + 3 * 0 + 2) = A (pr + 2) := this
        rw [e]; exact hpa.z
    · exact (l12.pt i hi).congr fun v h1 h2 => by rw [same v (by omega) (by omega), But3.ne (by omega)]

/-- One more block outside the objects. -/
def Ctx.more (K : Ctx) : Ctx := { K with B := K.B + 1 }

theorem request_more (hK : K.Calm) (h : At K E S s) : ∃ s', request 1 s = .ok (true, s') ∧ At K.more E S s' := by
  have hf : s.fails s.tick = false := by rw [h.orc]; exact hK _
  refine ⟨{ s with tick := s.tick + 1, live := s.live + 1 }, ?_, ?_⟩
  · unfold request; rw [if_neg (by rw [hf]; simp)]
  · refine ⟨h.objs, ?_, h.orc, ?_⟩
    · show s.live + 1 = K.B + 1 + _
      rw [h.bal]; ring
    · show K.T ≤ s.tick + 1
      have := h.tick; omega

theorem release_more (h : At K.more E S s) : ∃ s', release s = .ok ((), s') ∧ At K E S s' := by
  refine ⟨_, rfl, h.objs, ?_, h.orc, h.tick⟩
  show s.live - 1 = K.B + _
  have := h.bal
  rw [this]
  show K.B + 1 + _ - 1 = _
  ring

theorem winAt_mem (v : Nat) : v ∈ winAt sp ↔ ∃ i, i < 8 ∧ v = sp + 3 + 3 * i := by
  unfold winAt
  simp only [List.mem_cons, List.not_mem_nil, or_false]
  constructor
  · intro h; exact ⟨(v - sp - 3) / 3, by omega, by omega⟩
  · rintro ⟨i, hi, rfl⟩; omega

theorem winAt_pairwise : (winAt sp).Pairwise (fun a b => a + 2 < b ∨ b + 2 < a) := by
  unfold winAt
  simp only [List.pairwise_cons, List.mem_cons, List.not_mem_nil, or_false, List.Pairwise.nil, and_true, false_implies, implies_true]
  refine ⟨?_, ?_, ?_, ?_, ?_, ?_, ?_⟩ <;> intro b hb <;> omega

/-- What `cry_ecp_mul` does when no allocation fails. -/
theorem ecpMul_calm (hw : DigitWidth w) (hK : K.Calm) (hF : F ∨ ∀ k : Nat, k • P + k • P = 0 → k • P = 0) {kk p1 pr : Nat} {ds : List Nat}
    {X1 Y1 Z1 : Int}
    (hd : Digits (2 ^ w) ds) (hk : ∀ o, A kk o → ∃ n, o.Reads ⟨n, ds⟩) (hkk : kk < sp) (hg : g + 1 < sp) (hG : GrpAt w p a b A g za)
    (hp1 : p1 + 2 < sp) (hpr : pr + 2 < sp) (hpp : pr = p1 ∨ pr + 2 < p1 ∨ p1 + 2 < pr) (hpa : Pt3 w A pr) (hP : At3 w A p1 X1 Y1 Z1)
    (hon : OnPt X1 Y1 Z1 P) (h : At K A sp s) :
    (F ∧ ∃ s', ecpMul w sp pr p1 kk g s = .ok (-1, s') ∧ At K A sp s') ∨
    ∃ s' x y z, ecpMul w sp pr p1 kk g s = .ok (0, s') ∧ At K (But3 w A pr x y z) sp s' ∧
      OnPt x y z (val (2 ^ w) ds • P) ∧ (RedPt p X1 Y1 Z1 → RedPt p x y z) := by
  obtain ⟨s1, e1, k1⟩ := decl_run h 27
  have e2 := ecpIsZero_run (q := p1) (s := s1) (hP.z _ (by have := k1.objs (p1 + 2) (by omega); rwa [Locals.lo hp1] at this))
  have hz := onPt_zero hon
  unfold ecpMul
  rw [bind_ok e1, bind_ok e2]
  by_cases hP0 : P = 0
  · rw [if_pos (by simpa using hz.2 hP0)]
    have hon' : OnPt X1 Y1 Z1 (val (2 ^ w) ds • P) := by rw [hP0, nsmul_zero, ← hP0]; exact hon
    by_cases hpe : pr = p1
    · subst hpe
      exact Or.inr ⟨s1, X1, Y1, Z1, by rw [if_neg (by simp)]; rfl, at_self (undecl k1) hp1 hpa hP, hon', id⟩
    · obtain ⟨s2, e3, k2⟩ := ecpCopy_calm hK (undecl k1) hpr hp1 hpa hP hpp
      exact Or.inr ⟨s2, X1, Y1, Z1, by rw [if_pos hpe]; exact e3, k2, hon', id⟩
  rw [if_neg (by simpa using fun e => hP0 (hz.1 e))]
  obtain ⟨s2, e3, k2⟩ := ecpInit_calm hw hK k1 (q := sp) (by omega) fun v h1 h2 o ho => by rw [Locals.hi h1] at ho; rw [ho]; rfl
  obtain ⟨s3, e4, k3⟩ := request_more hK k2
  obtain ⟨s4, E4, e5, k4, p4, f4⟩ := ecpWinInit_calm hw (K := K.more) hK (winAt sp) [] _ s3 k3 (fun q hq => by
    obtain ⟨i, hi, rfl⟩ := (winAt_mem q).1 hq
    exact ⟨by omega, fun v h1 h2 o ho => by rw [But3.ne (by omega), Locals.hi (by omega)] at ho; rw [ho]; rfl⟩) winAt_pairwise
  have far : ∀ v, v ≤ sp + 2 → E4 v = But3 w (Locals sp A (· = Obj.fresh)) sp 1 1 0 v := fun v hv => f4 v fun q hq => by
    obtain ⟨i, hi, rfl⟩ := (winAt_mem q).1 hq; omega
  have fr : Fr w sp A E4 := by
    refine ⟨fun v hv => by rw [far v (by omega), But3.ne (by omega), Locals.lo hv], fun i hi => ?_⟩
    by_cases h0 : i = 0
    · subst h0; exact pt3_but3.congr fun v h1 h2 => far v (by omega)
    · exact p4 _ ((winAt_mem _).2 ⟨i - 1, by omega, by omega⟩)
  have m0 : Mult w p P (RedPt p X1 Y1 Z1) E4 sp 0 :=
    ⟨1, 1, 0, at3_but3.congr fun v h1 h2 => far v (by omega), by rw [zero_nsmul]; rfl, fun _ => Or.inl ⟨rfl, rfl, rfl⟩⟩
  have m1 : Mult w p P (RedPt p X1 Y1 Z1) A p1 1 := ⟨X1, Y1, Z1, hP, by rwa [one_nsmul], id⟩
  have fin : ∀ {s5 : St} {E5 B : Env}, At K.more E5 (sp + 27) s5 → Fr w sp B E5 → ∃ s6 s7 s8, ecpClearList (winAt sp) s5 = .ok ((), s6) ∧
      release s6 = .ok ((), s7) ∧ ecpClear sp s7 = .ok ((), s8) ∧ At K B sp s8 := by
    intro s5 E5 B k5 fr
    obtain ⟨s6, E6, e6, k6, o6, f6, -⟩ := ecpClearList_calm (w := w) (winAt sp) E5 s5 k5 (fun q hq => by
      obtain ⟨i, hi, rfl⟩ := (winAt_mem q).1 hq
      refine ⟨by omega, ?_⟩
      have := fr.pt (i + 1) (by omega)
      rwa [show sp + 3 * (i + 1) = sp + 3 + 3 * i by omega] at this) winAt_pairwise
    have far6 : ∀ v, v ≤ sp + 2 → E6 v = E5 v := fun v hv => f6 v fun q hq => by
      obtain ⟨i, hi, rfl⟩ := (winAt_mem q).1 hq; omega
    obtain ⟨s7, e7, k7⟩ := release_more k6
    obtain ⟨s8, E8, e8, k8, o8, f8, -⟩ := ecpClear_calm (w := w) k7 (q := sp) (by omega) ((fr.pt 0 (by omega)).congr fun v h1 h2 => far6 v (by omega))
    refine ⟨s6, s7, s8, e6, e7, e8, (exit_at k8 fun v h1 h2 o ho => ?_).le fun v hv o ho => ?_⟩
    · by_cases hv : v ≤ sp + 2
      · exact o8 v h1 hv o ho
      · rw [f8 v (by omega)] at ho
        exact o6 (sp + 3 + 3 * ((v - sp - 3) / 3)) ((winAt_mem _).2 ⟨_, by omega, rfl⟩) v (by omega) (by omega) o ho
    · rwa [f8 v (by omega), far6 v (by omega), fr.lo v hv] at ho
  rcases ecpMulBody_calm hw (K := K.more) hK hF hd hk hkk hg hG hp1 hpr hpa m1 k4 fr m0 with ⟨hf, s5, E5, e6, k5, fr5⟩ | ⟨s5, E5, x, y, z, e6, k5, fr5, c1, c2⟩
  · obtain ⟨s6, s7, s8, e7, e8, e9, k8⟩ := fin k5 fr5
    refine Or.inl ⟨hf, s8, ?_, k8⟩
    have inner : (do
        if ← request 1 then do
          let st ← chk (ecpWinInit w [] (winAt sp)) (do
            let st ← ecpMulBody w sp pr p1 kk g
            ecpClearList (winAt sp)
            pure st)
          release
          pure st
        else pure 0 : M Int) s2 = .ok (-1, s7) := by
      have i1 : chk (ecpWinInit w [] (winAt sp)) (do
            let st ← ecpMulBody w sp pr p1 kk g
            ecpClearList (winAt sp)
            pure st) s3 = .ok (-1, s6) := by rw [chk_ok e5, bind_ok e6, bind_ok e7]; rfl
      rw [bind_ok e4, if_pos rfl, bind_ok i1, bind_ok e8]; rfl
    rw [chk_ok e3, bind_ok inner, bind_ok e9]; rfl
  · obtain ⟨s6, s7, s8, e7, e8, e9, k8⟩ := fin k5 fr5
    refine Or.inr ⟨s8, x, y, z, ?_, k8, c1, c2⟩
    have inner : (do
        if ← request 1 then do
          let st ← chk (ecpWinInit w [] (winAt sp)) (do
            let st ← ecpMulBody w sp pr p1 kk g
            ecpClearList (winAt sp)
            pure st)
          release
          pure st
        else pure 0 : M Int) s2 = .ok (0, s7) := by
      have i1 : chk (ecpWinInit w [] (winAt sp)) (do
            let st ← ecpMulBody w sp pr p1 kk g
            ecpClearList (winAt sp)
            pure st) s3 = .ok (0, s6) := by rw [chk_ok e5, bind_ok e6, bind_ok e7]; rfl
      rw [bind_ok e4, if_pos rfl, bind_ok i1, bind_ok e8]; rfl
    rw [chk_ok e3, bind_ok inner, bind_ok e9]; rfl

end

end Verif.Mem
