import Verif.Lemmas.Mem.Gcd
import Verif.Lemmas.Mpi.Sqrt
import Verif.Model.Mem.Conv
/-! `cry_mpi_sqrt` in memory. -/
namespace Verif.Mem
open Verif.Mpi (Mpi Norm WF val Rep DigitWidth)

variable {w : Nat}

/-- Result `r` takes over a local, whose place `r` takes. -/
theorem swap_out {Q : Int → Obj → Prop} {sp N i r : Nat} {K : Ctx} {s0 s : St} {L : List Int} (h : At K (Nums Q sp (Now s0) L) (sp + N) s) (hi : i < N)
    (hr : r < sp) (hr0 : AnyR w (s0.obj r)) (hQ : ∀ z o, Q z o → AnyR w o) :
    WP (do swap r (sp + i); pure (0 : Int) : M Int) (Res K (sp + N) (Lv w sp (But s0 r (Q (L.getD i 0))) N) (Lv w sp (But s0 r (· = s0.obj r)) N)) s := by
  obtain ⟨u, s', e, h'⟩ := swap_at h (a := r) (b := sp + i) (by omega) (by omega)
  refine WP.bind_run e (WP.pure (Or.inl ⟨rfl, h'.le fun v hv o ho => ?_⟩))
  by_cases hv1 : v = sp + i
  · subst hv1
    rw [Function.update_self, Nums.lo hr] at ho
    rw [Lv.mid (by omega) (by omega), show o = s0.obj r from ho]
    exact hr0
  · rw [Function.update_of_ne hv1] at ho
    by_cases hv2 : v = r
    · subst hv2
      rw [Function.update_self, Nums.hi] at ho
      rw [Lv.lo hr]; unfold But; rw [Function.update_self]; exact ho
    · rw [Function.update_of_ne hv2] at ho
      unfold Nums at ho
      by_cases hv3 : v < sp
      · rw [if_pos hv3] at ho
        rw [Lv.lo hv3]; unfold But; rw [Function.update_of_ne hv2]; exact ho
      · rw [if_neg hv3] at ho
        rw [Lv.mid (by omega) (by omega)]; exact hQ _ _ ho

theorem now_but {sp r : Nat} {s : St} : Le sp (Now s) (But s r (· = s.obj r)) := by
  intro v hv o ho
  unfold But
  by_cases hvr : v = r
  · subst hvr; rw [Function.update_self]; exact ho
  · rw [Function.update_of_ne hvr]; exact ho

abbrev Vs (w : Nat) := Nums (fun z => V w z 0)

theorem v_any : ∀ (z : Int) (o : Obj), V w z 0 o → AnyR w o := fun _ _ h => h.any.r

section
variable {K : Ctx} {s0 : St} {sp a r : Nat} {G : Env} {A : Nat}

theorem sqrtStep_run (hw : DigitWidth w) (ha : (s0.obj a).Shows w A) (has : a < sp) {T T2 : Nat} (hT : 0 < T) {s : St}
    (h : At K (Vs w sp (Now s0) [(T : Int), T2]) (sp + 2) s) {k : M Int}
    (hk : ∀ s', At K (Vs w sp (Now s0) [(((T + A / T) / 2 : Nat) : Int), ((A / T : Nat) : Int)]) (sp + 2) s' →
      WP k (Res K (sp + 2) G (Lv w sp (But s0 r (· = s0.obj r)) 2)) s') :
    WP (sqrtStep w (sp + 2) sp (sp + 1) a k) (Res K (sp + 2) G (Lv w sp (But s0 r (· = s0.obj r)) 2)) s := by
  have hw0 : 0 < w := by have := hw.pos; omega
  unfold sqrtStep
  have h0 := Nums.val h (j := 0) (by omega)
  have h1 := Nums.val h (j := 1) (by omega)
  have oa : s.obj a = s0.obj a := Nums.arg h has
  have hd := div_same hw (sp := sp + 2) (s := s) (rq := some (sp + 1)) (rr := none) (a := a) (b := sp) (za := A) (zb := T)
    (by rw [oa]; exact ha) h0.shows (by omega) (by omega) (by omega) (by omega) (fun v e => by cases e; exact ⟨by omega, _, h1⟩) (fun v e => by cases e)
    (fun v _ => by simp)
  have hl := leaf_of_res (r := sp + 1) (by omega) hd
  rw [abs_of_nonneg (by omega), abs_of_nonneg (by omega)] at hl
  refine st_num (i := 1) h (by simp) now_but v_any (by omega) hl (fun o ho => ho.r) fun s1 h => ?_
  have h0 := Nums.val h (j := 0) (by omega)
  have h1 := Nums.val h (j := 1) (by omega)
  refine st_num (i := 0) h (by simp) now_but v_any (by omega) (add_leaf hw0 h0 h0.shows h1.shows) (fun o ho => ho.any.r) fun s2 h => ?_
  have h0 := Nums.val h (j := 0) (by omega)
  refine st_num (i := 0) h (by simp) now_but v_any (by omega) (shr_leaf hw0 h0 h0.shows 1 (by omega) (Or.inl (by
    simp only [List.set_cons_zero, List.set_cons_succ, List.getD_cons_zero, List.getD_cons_succ]; positivity))) (fun o ho => ho.any.r) fun s3 h => ?_
  refine hk s3 ?_
  simp only [List.set_cons_zero, List.set_cons_succ, List.getD_cons_zero, List.getD_cons_succ, pow_one] at h
  push_cast
  exact h

theorem sqrtLoop_run (hw : DigitWidth w) (ha : (s0.obj a).Shows w A) (has : a < sp) (hrs : r < sp) (hr : Any w (s0.obj r)) {S : Nat} (hS : 0 < S)
    (h1 : S * S ≤ A) (h2 : A < (S + 1) * (S + 1)) :
    ∀ (fuel : Nat) (s : St) (T T2 : Nat), At K (Vs w sp (Now s0) [(T : Int), T2]) (sp + 2) s → S ≤ T → (A = S * S + 2 * S → S + 1 ≤ T) → T < fuel →
      WP (sqrtLoop w (sp + 2) sp (sp + 1) a r fuel)
        (Res K (sp + 2) (Lv w sp (But s0 r (V w S 0)) 2) (Lv w sp (But s0 r (· = s0.obj r)) 2)) s
  | 0, _, _, _, _, _, _, h => by omega
  | fuel + 1, s, T, T2, h, hT, hbad, hf => by
    rw [sqrtLoop]
    refine sqrtStep_run hw ha has (by omega) h fun s1 h => ?_
    have g0 := Nums.val h (j := 0) (by omega)
    have g1 := Nums.val h (j := 1) (by omega)
    refine WP.bind_run (cmpAbs_eval g0.shows g1.shows) ?_
    simp only [List.getD_cons_zero, List.getD_cons_succ, Nat.abs_cast]
    have hge := Mpi.newton_ge (show 0 < T by omega) h1
    have hq1 : A / T * T ≤ A := Nat.div_mul_le_self _ _
    have hq2 : A < (A / T + 1) * T := by
      have := Nat.lt_mul_div_succ A (show 0 < T by omega)
      rwa [Nat.mul_comm] at this
    by_cases hc : A / T < (T + A / T) / 2
    · rw [if_pos (by
        rw [if_neg (by push_cast; omega), if_neg (by push_cast; omega)]; decide)]
      have hne : T ≠ S := by
        rintro rfl
        omega
      have hbad' : A = S * S + 2 * S → S + 1 ≤ (T + A / T) / 2 := by
        intro hA
        refine Mpi.newton_gt (by omega) hA ?_
        rintro rfl
        have : A / (S + 1) = S := by
          apply Nat.div_eq_of_lt_le <;> nlinarith
        omega
      exact sqrtLoop_run hw ha has hrs hr hS h1 h2 fuel s1 _ _ h hge hbad' (by omega)
    · rw [if_neg (by
        have : (((T + A / T) / 2 : Nat) : Int) ≤ ((A / T : Nat) : Int) := by exact_mod_cast not_lt.1 hc
        split_ifs <;> omega)]
      have hfin : (T + A / T) / 2 = S := by
        rcases Nat.eq_or_lt_of_le hT with heq | hlt
        · subst heq
          have h3 : A / S ≤ S + 1 := by
            have hne : A ≠ S * S + 2 * S := fun h => by have := hbad h; omega
            have : A / S < S + 2 := by
              rw [Nat.div_lt_iff_lt_mul hS]
              have e1 : (S + 1) * (S + 1) = S * S + 2 * S + 1 := by ring
              have e2 : (S + 2) * S = S * S + 2 * S := by ring
              omega
            omega
          omega
        · have h3 : A / T < T := by
            rw [Nat.div_lt_iff_lt_mul (by omega)]
            exact lt_of_lt_of_le h2 (Nat.mul_le_mul (by omega) (by omega))
          have h4 : T = A / T + 1 := by omega
          have h5 : (T + A / T) / 2 = A / T := by omega
          rw [h5] at hge ⊢
          have h6 : A / T * (A / T) ≤ A := le_trans (Nat.mul_le_mul_left _ (by omega)) hq1
          by_contra hcon
          have h7 : S + 1 ≤ A / T := by omega
          have := Nat.mul_le_mul h7 h7
          omega
      have := swap_out (i := 0) h (by omega) hrs hr.r v_any
      rw [List.getD_cons_zero, hfin] at this
      exact this

end

theorem sqrt_leaf (hw : DigitWidth w) {sp r a A : Nat} {s : St} (hr : Any w (s.obj r)) (ha : (s.obj a).Shows w A) (hrs : r < sp) (has : a < sp) :
    Leaf sp s r (sqrt w sp r a) (V w (Nat.sqrt A) 0) (· = s.obj r) := by
  have hw0 : 0 < w := by have := hw.pos; omega
  unfold sqrt
  refine leaf_locals (w := w) hrs fun s1 h => ?_
  have oa : s1.obj a = s.obj a := by have := h.objs a (by omega); rwa [Locals.lo has] at this
  have or' : s1.obj r = s.obj r := by have := h.objs r (by omega); rwa [Locals.lo hrs] at this
  obtain ⟨ma, a1, a2, aa, a4, a5⟩ := id ha
  have hneg : ma.neg = false := by rw [← Bool.not_eq_true, Mpi.neg_iff_of_wf a1, a2]; omega
  refine WP.bind_run (hdr_ok (by rw [oa]; exact a4)) ?_
  rw [if_neg (by simp [hneg])]
  by_cases h0 : ma.digs.length = 0
  · rw [if_pos h0]
    have hA : A = 0 := by
      have := (Mpi.toInt_eq_zero_iff (Nat.two_pow_pos w) a1.toNorm).2 (List.eq_nil_of_length_eq_zero h0)
      omega
    obtain ⟨zr, hr'⟩ := hr
    obtain ⟨s2, e2, t2, h2⟩ := zero_run (S := sp + 2) (s := s1) (v := r) (by rw [or']; exact hr')
    refine WP.bind_run e2 (WP.pure (Or.inl ⟨rfl, (step_at h (by omega) t2 h2).le ?_⟩))
    subst hA
    exact Lv.le_res hrs (Lv.start (P := (· = s.obj r)) rfl)
  · rw [if_neg h0]
    have hlist : ∀ v, v ∈ [sp, sp + 1] ↔ sp ≤ v ∧ v < sp + 2 := by
      intro v
      simp only [List.mem_cons, List.not_mem_nil, or_false]
      omega
    refine initList_res (Q := fun z => V w z 0) hw0 h hlist hlist (by simp) now_but (fun o ho => ho.weak (by omega)) fun s2 h => ?_
    have hApos : 0 < A := by
      rcases Nat.eq_zero_or_pos A with h | h
      · subst h
        exact absurd (by rw [(Mpi.toInt_eq_zero_iff (Nat.two_pow_pos w) a1.toNorm).1 a2]; rfl) h0
      · exact h
    have hSpos : 0 < Nat.sqrt A := Nat.sqrt_pos.2 hApos
    have hS1 := Nat.sqrt_le A
    have hS2 := Nat.lt_succ_sqrt A
    refine st_num (i := 0) h (by simp) now_but v_any (by omega) (copy_leaf (Nums.val h (j := 0) (by omega)) (x := a) (by rw [Nums.arg h has]; exact ha))
      (fun o ho => ho.any.r) fun s3 h => ?_
    have g0 := Nums.val h (j := 0) (by omega)
    obtain ⟨m0, m1, m2, m3⟩ := id g0
    have hav0 : val (2 ^ w) m0.digs = A := by
      have := Mpi.natAbs_toInt (2 ^ w) m0
      rw [m2] at this
      simpa using this.symm
    refine WP.bind_run (hdr_ok m3.1.1) ?_
    dsimp only
    refine st_num (i := 0) h (by simp) now_but v_any (by omega) (shrd_leaf g0 (m0.digs.length / 2) (by
      simp only [List.set_cons_zero, List.getD_cons_zero, List.replicate]; omega)) (fun o ho => ho.any.r) fun s4 h => ?_
    simp only [List.set_cons_zero, List.getD_cons_zero, List.replicate] at h
    have e : ((A : Int) / 2 ^ (w * (m0.digs.length / 2))) = ((A / 2 ^ (w * (m0.digs.length / 2)) : Nat) : Int) := by push_cast; rfl
    rw [e] at h
    have hc : 0 < A / 2 ^ (w * (m0.digs.length / 2)) := by
      apply Nat.div_pos _ (Nat.two_pow_pos _)
      have hne : m0.digs ≠ [] := fun h => by rw [h, Mpi.val_nil] at hav0; omega
      have := Mpi.val_pos_of_top (b := 2 ^ w) (Nat.two_pow_pos w) m1.top hne
      rw [hav0] at this
      refine le_trans ?_ this
      rw [← pow_mul]
      refine Nat.pow_le_pow_right (by omega) (Nat.mul_le_mul_left _ ?_)
      have := List.length_pos_of_ne_nil hne
      omega
    have h' : At (ctxOf sp s) (Vs w sp (Now s) [((A / 2 ^ (w * (m0.digs.length / 2)) : Nat) : Int), ((0 : Nat) : Int)]) (sp + 2) s4 := h
    refine sqrtStep_run hw ha has hc h' fun s5 h => ?_
    have g0 := Nums.val h (j := 0) (by omega)
    obtain ⟨m5, m1, m2, m3⟩ := id g0
    refine WP.bind_run (hdr_ok m3.1.1) ?_
    dsimp only
    refine sqrtLoop_run hw ha has hrs hr hSpos hS1 hS2 _ s5 _ _ h (Mpi.newton_ge hc hS1)
      (fun e => Mpi.newton_gt hc e (Mpi.first_guess (Nat.two_pow_pos _) e hSpos)) ?_
    have l := Mpi.val_lt m1.digits
    have n := Mpi.natAbs_toInt (2 ^ w) m5
    rw [m2] at n
    simp only [List.getD_cons_zero, Int.natAbs_natCast] at n
    rw [← pow_mul, ← n] at l
    omega

end Verif.Mem
