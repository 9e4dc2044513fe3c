import Verif.Lemmas.Mem.DivAbs
import Verif.Lemmas.Mem.Sqr
import Verif.Lemmas.Mpi.ModExp
import Verif.Model.Mem.NumTheory
/-! `cry_mpi_set_int`, `cry_mpi_init_int` and `cry_mpi_mod_exp` with their allocations. -/
namespace Verif.Mem
open Verif.Mpi (Mpi Norm WF val Rep DigitWidth Digits TopNZ)

variable {w : Nat}

theorem Leaf.chk {S : Nat} {s : St} {r : Nat} {c k : M Int} {g b g' b' : Obj → Prop} (h : Leaf S s r c g b) (hb : ∀ o, b o → b' o)
    (hk : ∀ s', Step S s s' r → g (s'.obj r) → Leaf S s' r k g' b') : Leaf S s r (chk c k) g' b' := by
  obtain ⟨st, s1, h1, h2, h3⟩ := h
  rcases h3 with ⟨rfl, h3⟩ | ⟨rfl, hf, h3⟩
  · obtain ⟨st, s2, k1, k2, k3⟩ := hk s1 h2 h3
    refine ⟨st, s2, by rw [chk_ok h1, k1], h2.trans k2, ?_⟩
    rcases k3 with k3 | ⟨e, f, k3⟩
    · exact Or.inl k3
    · exact Or.inr ⟨e, f.pre h2.tick h2.fails, k3⟩
  · exact ⟨-1, s1, chk_fail h1 (by decide), h2, Or.inr ⟨rfl, hf, hb _ h3⟩⟩

theorem leaf_pure {S : Nat} {s : St} {r : Nat} {g b : Obj → Prop} (h : g (s.obj r)) : Leaf S s r (pure 0) g b :=
  ⟨0, s, rfl, Step.refl _ _ _, Or.inl ⟨rfl, h⟩⟩

/-! ### Small numbers -/

theorem setIntLoop_run (hw : 0 < w) {S a c : Nat} {g : Bool} : ∀ (n u : Nat) (pre : List Nat) (s : St), HoldsC ⟨g, pre⟩ c (s.obj a) →
    pre.length + n ≤ c → u < 2 ^ (w * n) →
    ∃ s' ds, setIntLoop w a n pre.length u s = .ok ((), s') ∧ Step S s s' a ∧ HoldsC ⟨g, pre ++ ds⟩ c (s'.obj a) ∧
      Digits (2 ^ w) ds ∧ TopNZ ds ∧ val (2 ^ w) ds = u ∧ s'.tick = s.tick
  | 0, u, pre, s, h, _, hu => by
    have : u = 0 := by simpa using hu
    subst this
    exact ⟨s, [], rfl, Step.refl _ _ _, by simpa using h, by simp [Digits], by simp, rfl, rfl⟩
  | n + 1, u, pre, s, h, hc, hu => by
    rw [setIntLoop]
    by_cases h0 : u = 0
    · subst h0
      rw [if_neg (by simp)]
      exact ⟨s, [], rfl, Step.refl _ _ _, by simpa using h, by simp [Digits], by simp, rfl, rfl⟩
    · have hlen := h.2
      have hp : (pre ++ [u % 2 ^ w]).map some <+: (s.obj a).cells.set pre.length (some (u % 2 ^ w)) := by
        obtain ⟨t, ht⟩ := h.1.2.1
        dsimp only at ht
        rw [← ht] at hlen ⊢
        cases t with
        | nil => simp at hlen; omega
        | cons x t =>
          refine ⟨t, ?_⟩
          rw [List.set_append_right _ _ (by simp)]
          simp
      have hs : ((s.obj a).cells.set pre.length (some (u % 2 ^ w))).length = (s.obj a).cells.length := List.length_set
      rw [if_pos h0, bind_ok (wr_ok h.1.1 _ (by omega)), bind_ok (setUsed_ok (by rw [upd_obj_same]; rfl) _)]
      simp only [upd_upd, upd_obj_same, cells_upd hs]
      have h2 : HoldsC ⟨g, pre ++ [u % 2 ^ w]⟩ c ((s.upd a ⟨g, pre.length + 1, (s.obj a).cells.length⟩
          ((s.obj a).cells.set pre.length (some (u % 2 ^ w)))).obj a) := by
        rw [upd_obj_same]
        exact ⟨holds_len_upd h.1 hs hp (by simp), by rw [cells_upd hs, hs]; exact hlen⟩
      obtain ⟨s', ds, e1, e2, e3, e4, e5, e6, e7⟩ := setIntLoop_run hw (S := S) n (u / 2 ^ w) _ _ h2 (by simp; omega) (by
        rw [Nat.div_lt_iff_lt_mul (Nat.two_pow_pos w), ← pow_add]
        exact hu.trans_eq (by ring_nf))
      refine ⟨s', u % 2 ^ w :: ds, ?_, (Step.upd S s a _ _).trans e2, by simpa using e3, ?_, ?_, ?_, e7⟩
      · simpa using e1
      · intro d hd
        rcases List.mem_cons.1 hd with rfl | hd
        · exact Nat.mod_lt _ (Nat.two_pow_pos w)
        · exact e4 d hd
      · rw [Mpi.topNZ_cons]
        by_cases hd : ds = []
        · left
          subst hd
          refine ⟨rfl, fun hz => h0 ?_⟩
          have := Nat.div_add_mod u (2 ^ w)
          rw [← e6, hz] at this
          simpa using this.symm
        · exact Or.inr ⟨hd, e5⟩
      · rw [Mpi.val_cons, e6]; exact Nat.mod_add_div u (2 ^ w)

theorem setInt_room (hw : DigitWidth w) : (8 * 8 - 1) / w + 1 ≤ 8 ∧ 64 ≤ w * ((8 * 8 - 1) / w + 1) := by
  rcases hw with rfl | rfl | rfl | rfl <;> decide

/-- `cry_mpi_set_int` of an object with room for a `long`: no allocation. -/
theorem setInt_run (hw : DigitWidth w) {S a : Nat} {s : St} {z v : Int} (h : V w z 8 (s.obj a)) (hv : v.natAbs < 2 ^ 63) :
    ∃ s', setInt w a v s = .ok (0, s') ∧ Step S s s' a ∧ V w v 8 (s'.obj a) ∧ s'.tick = s.tick := by
  have hw0 : 0 < w := by have := hw.pos; omega
  obtain ⟨m, m1, m2, m3⟩ := h
  obtain ⟨r1, r2⟩ := setInt_room hw
  have hg : grow a ((8 * 8 - 1) / w + 1) s = .ok (0, s) := by
    unfold grow
    rw [bind_ok (hdr_ok m3.1.1)]
    dsimp only
    rw [if_pos (by have := m3.2; omega)]; rfl
  unfold setInt
  rw [chk_ok hg, if_neg (by intro h; subst h; revert hv; decide), bind_ok (setSign_ok m3.1.1 _), bind_ok (setUsed_ok (by rw [upd_obj_same]; rfl) _)]
  simp only [upd_upd, upd_obj_same, cells_upd rfl]
  have h2 : HoldsC ⟨decide (v < 0), []⟩ 8 ((s.upd a ⟨decide (v < 0), 0, (s.obj a).cells.length⟩ (s.obj a).cells).obj a) := by
    rw [upd_obj_same]
    exact ⟨holds_len_upd m3.1 rfl (by simp) rfl, by rw [cells_upd rfl]; exact m3.2⟩
  obtain ⟨s', ds, e1, e2, e3, e4, e5, e6, e7⟩ := setIntLoop_run hw0 (S := S) ((8 * 8 - 1) / w + 1) v.natAbs [] _ h2 (by simpa using r1)
    (hv.trans_le (Nat.pow_le_pow_right (by omega) (by omega)))
  refine ⟨s', (bind_ok (show setIntLoop w a _ 0 _ _ = _ from e1)).trans rfl, (Step.upd S s a _ _).trans e2, ⟨⟨decide (v < 0), ds⟩, ⟨⟨e4, e5⟩, fun hd => ?_⟩, ?_, e3⟩, e7⟩
  · dsimp only at hd ⊢
    subst hd
    have : v = 0 := by simpa using e6.symm
    subst this; decide
  · unfold Mpi.Mpi.toInt
    dsimp only
    rw [e6]
    by_cases hv0 : v < 0
    · rw [if_pos (by simpa using hv0)]; omega
    · rw [if_neg (by simpa using hv0)]; omega

theorem initInt_run (hw : DigitWidth w) {S a : Nat} {s : St} {v : Int} (ho : (s.obj a).owns = 0) (hf : s.fails s.tick = false)
    (hv : v.natAbs < 2 ^ 63) :
    ∃ s', initInt w a v s = .ok (0, s') ∧ Step S s s' a ∧ V w v 8 (s'.obj a) := by
  have hw0 : 0 < w := by have := hw.pos; omega
  obtain ⟨st, s1, h1, h2, h3⟩ := init_run (sp := S) hw0 ho
  rcases h3 with ⟨rfl, h3⟩ | ⟨rfl, ⟨k, f1, f2, f3⟩, -⟩
  · obtain ⟨s2, e1, e2, e3, -⟩ := setInt_run hw (S := S) h3 hv
    refine ⟨s2, ?_, h2.trans e2, e3⟩
    unfold initInt
    rw [chk_ok h1, bind_ok e1, if_neg (by decide)]; rfl
  · exfalso
    have hr : request 1 s = .ok (true, { s with tick := s.tick + 1, live := s.live + 1 }) := if_neg (by rw [hf]; decide)
    have e : ∃ s', init a s = .ok (0, s') := ⟨_, by unfold init; rw [bind_ok hr]; rfl⟩
    obtain ⟨s', e⟩ := e
    rw [e] at h1
    injection h1 with h1
    injection h1 with h1
    exact absurd h1 (by decide)

/-! ### Square and multiply -/

/-- Reduction if there is a modulus. -/
def red : Option Int → Int → Int
  | none, z => z
  | some v, z => z % v

theorem red_mul (zm : Option Int) (a b : Int) : red zm (red zm a * b) = red zm (a * b) := by
  cases zm with
  | none => rfl
  | some v => exact ((Int.mod_modEq a v).mul_right b)
theorem red_pow (zm : Option Int) (a b : Int) (k : Nat) : red zm (red zm a ^ k * b) = red zm (a ^ k * b) := by
  cases zm with
  | none => rfl
  | some v => exact (((Int.mod_modEq a v).pow k).mul_right b)

/-- The modulus argument is absent or a positive number. -/
def Modulus (w : Nat) (s : St) : Option Nat → Option Int → Prop
  | none, none => True
  | some m, some v => (s.obj m).Shows w v ∧ 0 < v
  | _, _ => False

theorem Modulus.keep {s s' : St} {m : Option Nat} {zm : Option Int} (h : Modulus w s m zm) (hs : ∀ v, m = some v → s'.obj v = s.obj v) :
    Modulus w s' m zm := by
  match m, zm with
  | none, none => trivial
  | some m, some v => exact ⟨by rw [hs m rfl]; exact h.1, h.2⟩
  | none, some v => exact h
  | some m, none => exact h

theorem modOpt_leaf (hw : DigitWidth w) {S x : Nat} {s : St} {m : Option Nat} {zm : Option Int} {z : Int} (hx : V w z 0 (s.obj x))
    (hxS : x < S) (hm : Modulus w s m zm) (hmS : ∀ v, m = some v → v < S ∧ v ≠ x) :
    Leaf S s x (modOpt w S x m) (V w (red zm z) 0) (AnyR w) := by
  match m, zm with
  | none, none => exact leaf_pure hx
  | some m, some v =>
    exact (mod_leaf hw hx.shows hm.1 hxS (hmS m rfl).1 hm.2 hxS hx.any (Or.inr (hmS m rfl).2)).mono (fun _ h => h) (fun _ h => h.r)
  | none, some v => exact hm.elim
  | some m, none => exact hm.elim

theorem isBitSet_run (hw : 0 < w) {e k : Nat} {s : St} {me : Mpi} (h : (s.obj e).Reads me) (hn : Norm (2 ^ w) me)
    (hk : k < w * me.digs.length) : isBitSet w e k s = .ok ((val (2 ^ w) me.digs).testBit k, s) := by
  rw [← Mpi.isBitSet_spec hw hn]
  unfold isBitSet
  rw [bind_ok (rd_run h (Nat.div_lt_of_lt_mul hk))]
  rfl

theorem expLoop_leaf (hw : DigitWidth w) {S x b e : Nat} {m : Option Nat} {zm : Option Int} {B : Int} {me : Mpi} (hxS : x < S) (hbS : b < S)
    (heS : e < S) (hbx : b ≠ x) (hex : e ≠ x) (hmS : ∀ v, m = some v → v < S ∧ v ≠ x) (hn : Norm (2 ^ w) me) :
    ∀ (n : Nat) (s : St) (X : Int), V w X 0 (s.obj x) → RS w B (s.obj b) → (s.obj e).Reads me → Modulus w s m zm → n ≤ w * me.digs.length →
    Leaf S s x (expLoop w S x b e m n)
      (V w (if n = 0 then X else red zm (X ^ 2 ^ n * B ^ (val (2 ^ w) me.digs % 2 ^ n))) 0) (AnyR w)
  | 0, s, X, hx, _, _, _, _ => by
    rw [expLoop, if_pos rfl]; exact leaf_pure hx
  | n + 1, s, X, hx, hb, he, hm, hle => by
    have hw0 : 0 < w := by have := hw.pos; omega
    rw [expLoop, if_neg (by omega)]
    obtain ⟨mr, r1, r2, r3⟩ := id hx
    have sq := (sqr_leaf hw.pos (sp := S) ⟨r1.toNorm, r2⟩ r3 hx.rs hxS hxS (Or.inl rfl))
    rw [if_pos rfl] at sq
    refine sq.chk (fun _ h => h) fun s1 t1 h1 => ?_
    have hm1 := hm.keep (fun v hv => t1.frame v (hmS v hv).1 (hmS v hv).2)
    refine (modOpt_leaf hw h1.v hxS hm1 hmS).chk (fun _ h => h) fun s2 t2 h2 => ?_
    have t := t1.trans t2
    have he2 : (s2.obj e).Reads me := by rw [t.frame e heS hex]; exact he
    have hb2 : RS w B (s2.obj b) := by rw [t.frame b hbS hbx]; exact hb
    have hm2 := hm.keep (fun v hv => t.frame v (hmS v hv).1 (hmS v hv).2)
    refine Leaf.congr ?_ (show _ = _ from bind_ok (isBitSet_run hw0 he2 hn (by omega)))
    have key : Leaf S s2 x (if (val (2 ^ w) me.digs).testBit n then Mem.chk (mul w S x x b) (modOpt w S x m) else pure 0)
        (V w (red zm (X * X * (if (val (2 ^ w) me.digs).testBit n then B else 1))) 0) (AnyR w) := by
      by_cases hbit : (val (2 ^ w) me.digs).testBit n = true
      · rw [if_pos hbit, if_pos hbit]
        refine (mul_leaf hw.pos h2.r h2.rs hb2 hxS hxS hbS (Or.inl rfl)).chk (fun _ h => h) fun s3 t3 h3 => ?_
        have := modOpt_leaf hw h3 hxS (hm2.keep (fun v hv => t3.frame v (hmS v hv).1 (hmS v hv).2)) hmS
        rwa [red_mul] at this
      · rw [if_neg hbit, if_neg hbit, mul_one]
        exact leaf_pure h2
    refine key.chk (fun _ h => h) fun s3 t3 h3 => ?_
    have t' := t.trans t3
    have := expLoop_leaf hw hxS hbS heS hbx hex hmS hn n s3 _ h3 (by rw [t'.frame b hbS hbx]; exact hb)
      (by rw [t'.frame e heS hex]; exact he) (hm.keep (fun v hv => t'.frame v (hmS v hv).1 (hmS v hv).2)) (by omega)
    refine this.mono (fun o h => ?_) (fun _ h => h)
    rw [Mpi.pow_step]
    by_cases h0 : n = 0
    · subst h0
      rw [if_pos rfl] at h
      simpa [Nat.mod_one] using h
    · rw [if_neg h0, red_pow] at h
      exact h

/-- `leaf_locals` with the number of allocation requests so far. -/
theorem leaf_locals_tick {sp k r : Nat} {s : St} {c : M Int} {good bad : Obj → Prop} (hr : r < sp)
    (h : ∀ s', At (ctxOf sp s) (Locals sp (Now s) (· = Obj.fresh)) (sp + k) s' → s'.tick = s.tick →
      WP c (Res (ctxOf sp s) (sp + k) (Lv w sp (But s r good) 0) (Lv w sp (But s r bad) 0)) s') :
    Leaf sp s r (do decl sp k; c) good bad := by
  obtain ⟨u, s1, e, h1⟩ := decl_at (at_now sp s) k
  have ht : s1.tick = s.tick := by
    injection e with e
    injection e with _ e
    rw [← e]
  refine leaf_of_res hr (WP.bind_run e ((h s1 h1 ht).mono fun st s'' h'' => ?_))
  exact exit_res h'' (fun v hv o ho => by rwa [Lv.lo hv] at ho) (fun v hv o ho => by rwa [Lv.lo hv] at ho)
    (fun v hv hv' o ho => by rwa [Lv.hi (by omega)] at ho) (fun v hv hv' o ho => by rwa [Lv.hi (by omega)] at ho)

theorem countBits_le (hw : DigitWidth w) {m : Mpi} (h : Norm (2 ^ w) m) : Mpi.countBits w m ≤ w * m.digs.length := by
  rw [Mpi.countBits_spec hw h, Nat.size_le, pow_mul]
  exact Mpi.val_lt h.digits

theorem modExp_leaf (hw : DigitWidth w) {sp r b e : Nat} {m : Option Nat} {zm : Option Int} {s : St} {zb ze : Int} (hr : Any w (s.obj r))
    (hb : (s.obj b).Shows w zb) (he : (s.obj e).Shows w ze) (hm : Modulus w s m zm) (hrs : r < sp) (hbs : b < sp) (hes : e < sp)
    (hms : ∀ v, m = some v → v < sp) (he0 : 0 ≤ ze) (hf : s.fails s.tick = false) :
    Leaf sp s r (modExp w sp r b e m) (V w (if ze = 0 then 1 else red zm (zb ^ ze.toNat)) 0) (· = s.obj r) := by
  unfold modExp
  refine leaf_locals_tick (w := w) hrs fun s1 h1 ht => ?_
  have hw0 : 0 < w := by have := hw.pos; omega
  have ob : ∀ v, v < sp → s1.obj v = s.obj v := fun v hv => by
    have := h1.objs v (by omega); rw [Locals.lo hv] at this; exact this
  obtain ⟨me, e1, e2, e3⟩ := id he
  have hme : me.neg = false := by rw [← Bool.not_eq_true, Mpi.neg_iff_of_wf e1, e2]; omega
  have hval : val (2 ^ w) me.digs = ze.toNat := by
    rw [← e2, Mpi.toInt_false hme]; rfl
  have hnm : negOpt m s1 = .ok (false, s1) := by
    match m, zm with
    | none, none => rfl
    | some m, some v =>
      obtain ⟨⟨mm, m1, m2, a, m3, -⟩, hv⟩ := hm
      rw [negOpt, bind_ok (hdr_ok (by rw [ob m (hms m rfl)]; exact m3))]
      have : mm.neg = false := by rw [← Bool.not_eq_true, Mpi.neg_iff_of_wf m1, m2]; omega
      dsimp only
      rw [this]; rfl
    | none, some v => exact hm.elim
    | some m, none => exact hm.elim
  have e3' : (s1.obj e).Reads me := by rw [ob e hes]; exact e3
  obtain ⟨ae, e4, e5⟩ := id e3'
  refine WP.bind_run (hdr_ok e4) (WP.bind_run hnm ?_)
  dsimp only
  rw [if_neg (by rw [hme]; decide)]
  have hown : (s1.obj sp).owns = 0 := by
    have := h1.objs sp (by omega); rw [Locals.hi (le_refl _)] at this; rw [this]; rfl
  obtain ⟨s2, i1, i2, i3⟩ := initInt_run hw (S := sp + 1) (v := 1) hown (by rw [h1.orc, ht]; exact hf) (by decide)
  refine WP.bind_run i1 ?_
  have ob2 : ∀ v, v < sp → s2.obj v = s.obj v := fun v hv => by rw [i2.frame v (by omega) (by omega), ob v hv]
  refine WP.bind_run (countBits_run (by rw [ob2 e hes]; exact e3)) ?_
  have hl := expLoop_leaf hw (S := sp + 1) (x := sp) (by omega) (by omega : b < sp + 1) (by omega : e < sp + 1) (by omega) (by omega)
    (m := m) (zm := zm) (B := zb) (fun v hv => ⟨by have := hms v hv; omega, by have := hms v hv; omega⟩) e1.toNorm
    (Mpi.countBits w me) s2 1 (i3.weak (Nat.zero_le _)) (by rw [ob2 b hbs]; exact shows_rs hb) (by rw [ob2 e hes]; exact e3)
    (hm.keep fun v hv => ob2 v (hms v hv)) (countBits_le hw e1.toNorm)
  have h2 := step_at h1 (by omega) i2 i3
  obtain ⟨st, s3, l1, l2, l3⟩ := hl
  refine WP.bind_run l1 ?_
  rcases l3 with ⟨rfl, l3⟩ | ⟨rfl, hfl, l3⟩
  · rw [if_neg (by decide)]
    have h3 := step_at h2 (by omega) l2 l3
    obtain ⟨u, s4, w1, w2⟩ := swap_at (a := r) (b := sp) h3 (by omega) (by omega)
    refine WP.bind_run w1 ?_
    obtain ⟨u', s5, c1, c2⟩ := clear_at (a := sp) w2 (by omega) (fun o ho => by
      rw [Function.update_self, Function.update_of_ne (by omega), Function.update_of_ne (by omega), Locals.lo hrs] at ho
      rw [show o = s.obj r from ho]
      exact hr.clr)
    refine WP.bind_run c1 (WP.pure (Or.inl ⟨?_, c2.le fun v hv o ho => ?_⟩))
    · exact ite_self _
    · by_cases hv1 : v = sp
      · subst hv1
        rw [Function.update_self] at ho
        rw [Lv.hi (by omega), ho]; rfl
      · rw [Function.update_of_ne hv1, Function.update_of_ne hv1] at ho
        rw [Lv.lo (by omega)]
        unfold But
        by_cases hv2 : v = r
        · subst hv2
          rw [Function.update_self, Function.update_self] at ho
          rw [Function.update_self]
          have hc : Mpi.countBits w me = Nat.size ze.toNat := by rw [Mpi.countBits_spec hw e1.toNorm, hval]
          rw [hval, hc, one_pow, one_mul, Mpi.mod_size] at ho
          have : Nat.size ze.toNat = 0 ↔ ze = 0 := by rw [Nat.size_eq_zero]; omega
          simpa only [this] using ho
        · rw [Function.update_of_ne hv2, Function.update_of_ne hv1, Function.update_of_ne hv1, Locals.lo (by omega)] at ho
          rw [Function.update_of_ne hv2]; exact ho
  · rw [if_pos (by decide)]
    have h3 := step_at h2 (by omega) l2 l3
    obtain ⟨s5, c1, c2, c3⟩ := clear_run (sp := sp + 1) l3.clr
    obtain ⟨k, f1, f2, f3⟩ := hfl
    refine WP.bind_run c1 (WP.pure (Or.inr ⟨rfl, ⟨k, ?_, f2.trans_le c2.tick, ?_⟩, (step_at (P := (· = Obj.cleared)) h3 (by omega) c2 c3).le
      fun v hv o ho => ?_⟩))
    · exact h2.tick.trans f1
    · rw [← h2.orc]; exact f3
    · by_cases hv1 : v = sp
      · subst hv1
        rw [Function.update_self] at ho
        rw [Lv.hi (by omega), ho]; rfl
      · rw [Function.update_of_ne hv1, Function.update_of_ne hv1, Function.update_of_ne hv1, Locals.lo (by omega)] at ho
        rw [Lv.lo (by omega)]
        unfold But
        by_cases hv2 : v = r
        · subst hv2
          rw [Function.update_self]; exact ho
        · rw [Function.update_of_ne hv2]; exact ho

end Verif.Mem
