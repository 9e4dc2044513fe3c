import Verif.Lemmas.Mem.Five
import Verif.Lemmas.Mem.DivArith
/-! The long division in memory. -/
namespace Verif.Mem
open Verif.Mpi (Mpi Norm WF val Rep)

variable {w nq : Nat}

theorem jp_run {c : Prop} [Decidable c] {f : Nat → M Int} {y j d : Nat} {s : St} {P : Int → St → Prop} (h0 : c → d = 0)
    (h1 : ¬ c → (s.obj y).cells[j]? = some (some d)) (hk : WP (f d) P s) :
    WP (if c then (do let a ← pure 0; f a) else (do let a ← rd y j; f a)) P s := by
  by_cases hc : c
  · rw [if_pos hc, ← h0 hc]; exact hk
  · rw [if_neg hc]; exact WP.bind_run (rd_ok (h1 hc)) hk

theorem put2 {S v y t yt1 yt n : Nat} {s : St} {m : Mpi} {k : M Int} {P : Int → St → Prop} (h : HoldsC m n (s.obj v)) (h2 : 2 ≤ n) (hv : y ≠ v)
    (h1 : (s.obj y).cells[t]? = some (some yt)) (h0 : t ≠ 0 → (s.obj y).cells[t - 1]? = some (some yt1)) (h00 : t = 0 → yt1 = 0)
    (hk : ∀ s', Step S s s' v → HoldsC ⟨false, [yt1, yt]⟩ n (s'.obj v) → WP k P s') :
    WP (do
      zero v
      wr v 0 (← if t = 0 then pure 0 else rd y (t - 1))
      wr v 1 (← rd y t)
      setUsed v 2
      k) P s := by
  have hn := h.2
  refine WP.bind_run (zero_ok h.1.1) ?_
  refine jp_run h00 (fun ht => by rw [upd_obj_ne _ _ _ hv]; exact h0 ht) ?_
  refine WP.bind_run (wr_ok (i := 0) (by rw [upd_obj_same]; rfl) _ (by rw [upd_obj_same, cells_upd rfl]; omega)) ?_
  simp only [upd_upd, upd_obj_same, cells_upd]
  have l1 : ((s.obj v).cells.set 0 (some yt1)).length = (s.obj v).cells.length := by simp
  refine WP.bind_run (rd_ok (d := yt) (by rw [upd_obj_ne _ _ _ hv]; exact h1)) ?_
  refine WP.bind_run (wr_ok (i := 1) (by rw [upd_obj_same]; rfl) _ (by rw [upd_obj_same, cells_upd l1, l1]; omega)) ?_
  simp only [upd_upd, upd_obj_same, cells_upd l1]
  have l2 : (((s.obj v).cells.set 0 (some yt1)).set 1 (some yt)).length = (s.obj v).cells.length := by simp
  refine WP.bind_run (setUsed_ok (by rw [upd_obj_same]; rfl) 2) ?_
  simp only [upd_upd, upd_obj_same, cells_upd l2]
  refine hk _ (Step.upd _ _ _ _ _) ?_
  rw [upd_obj_same]
  refine ⟨holds_len_upd (m' := ⟨false, [yt1, yt]⟩) h.1 l2 ?_ rfl, by rw [cells_upd l2, l2]; exact hn⟩
  match hc : (s.obj v).cells, hn.trans' h2 with
  | c0 :: c1 :: cs, _ => simp
  | [_], h' => simp at h'
  | [], h' => simp at h'

theorem put3 {S v x i d0 d1 d2 n : Nat} {s : St} {ds : List Nat} {k : M Int} {P : Int → St → Prop} (h : HoldsC ⟨false, ds⟩ n (s.obj v)) (h3 : 3 ≤ n)
    (hv : x ≠ v) (h2 : (s.obj x).cells[i]? = some (some d2)) (h1 : i ≠ 0 → (s.obj x).cells[i - 1]? = some (some d1)) (h10 : i = 0 → d1 = 0)
    (h0 : ¬ i ≤ 1 → (s.obj x).cells[i - 2]? = some (some d0)) (h00 : i ≤ 1 → d0 = 0)
    (hk : ∀ s', Step S s s' v → HoldsC ⟨false, [d0, d1, d2]⟩ n (s'.obj v) → WP k P s') :
    WP (do
      wr v 0 (← if i ≤ 1 then pure 0 else rd x (i - 2))
      wr v 1 (← if i = 0 then pure 0 else rd x (i - 1))
      wr v 2 (← rd x i)
      setUsed v 3
      k) P s := by
  have hn := h.2
  refine jp_run h00 h0 ?_
  refine WP.bind_run (wr_ok (i := 0) h.1.1 _ (by omega)) ?_
  have l1 : ((s.obj v).cells.set 0 (some d0)).length = (s.obj v).cells.length := by simp
  refine jp_run h10 (fun ht => by rw [upd_obj_ne _ _ _ hv]; exact h1 ht) ?_
  refine WP.bind_run (wr_ok (i := 1) (by rw [upd_obj_same]; rfl) _ (by rw [upd_obj_same, cells_upd l1, l1]; omega)) ?_
  simp only [upd_upd, upd_obj_same, cells_upd l1]
  have l2 : (((s.obj v).cells.set 0 (some d0)).set 1 (some d1)).length = (s.obj v).cells.length := by simp
  refine WP.bind_run (rd_ok (d := d2) (by rw [upd_obj_ne _ _ _ hv]; exact h2)) ?_
  refine WP.bind_run (wr_ok (i := 2) (by rw [upd_obj_same]; rfl) _ (by rw [upd_obj_same, cells_upd l2, l2]; omega)) ?_
  simp only [upd_upd, upd_obj_same, cells_upd l2]
  have l3 : ((((s.obj v).cells.set 0 (some d0)).set 1 (some d1)).set 2 (some d2)).length = (s.obj v).cells.length := by simp
  refine WP.bind_run (setUsed_ok (by rw [upd_obj_same]; rfl) 3) ?_
  simp only [upd_upd, upd_obj_same, cells_upd l3]
  refine hk _ (Step.upd _ _ _ _ _) ?_
  rw [upd_obj_same]
  refine ⟨holds_len_upd (m' := ⟨false, [d0, d1, d2]⟩) h.1 l3 ?_ rfl, by rw [cells_upd l3, l3]; exact hn⟩
  match hc : (s.obj v).cells, hn.trans' h3 with
  | c0 :: c1 :: c2 :: cs, _ => simp
  | [_, _], h' => simp at h'
  | [_], h' => simp at h'
  | [], h' => simp at h'

/-- The digit `k` of the quotient lies between `lo` and `e` and passes the test. -/
def QD (nq : Nat) (qs : List Nat) (k lo e : Nat) (test : Nat → Prop) : CP :=
  ⟨fun o => ∃ d, lo ≤ d ∧ d ≤ e ∧ test d ∧ HoldsC ⟨false, qs.set k d⟩ nq o, fun _ ⟨_, _, _, _, h⟩ => Or.inr ⟨_, h.1⟩⟩

section
variable {K : Ctx} {E : Env} {b S : Nat} {P0 P1 P2 P3 P4 : CP}

theorem divCorr_res (hw : 8 ≤ w) (hS : b + 5 ≤ S) {i t k yt1 yt d0 d1 d2 Q : Nat} {qs : List Nat} (hk : k < qs.length)
    (y1 : ∀ o, P4.p o → o.cells[t]? = some (some yt)) (y0 : ∀ o, P4.p o → t ≠ 0 → o.cells[t - 1]? = some (some yt1)) (y00 : t = 0 → yt1 = 0)
    (x2 : ∀ o, P3.p o → o.cells[i]? = some (some d2)) (x1 : ∀ o, P3.p o → i ≠ 0 → o.cells[i - 1]? = some (some d1)) (x10 : i = 0 → d1 = 0)
    (x0 : ∀ o, P3.p o → ¬ i ≤ 1 → o.cells[i - 2]? = some (some d0)) (x00 : i ≤ 1 → d0 = 0)
    (hyt : 0 < yt) (hyt' : yt < 2 ^ w) (hyt1 : yt1 < 2 ^ w) (hd : Mpi.Digits (2 ^ w) [d0, d1, d2])
    (hQ : Q * (yt1 + 2 ^ w * yt) ≤ val (2 ^ w) [d0, d1, d2]) {e0 : Nat} :
    ∀ fuel e (s : St), e < fuel → e ≤ e0 → e < 2 ^ w → Q ≤ e → At K (D5 E b (HD (qs.set k ((e + 1) % 2 ^ w)) nq) (VCpos w 2) (HDany 3) P3 P4) S s →
      WP (divCorr w S b (b + 1) (b + 2) (b + 3) (b + 4) i t k fuel)
        (Res K S (D5 E b (QD nq qs k Q e0 fun d => d * (yt1 + 2 ^ w * yt) ≤ val (2 ^ w) [d0, d1, d2] ∨ d * (yt1 + 2 ^ w * yt) < 2 ^ w * 2 ^ w)
          (VCpos w 2) (HDany 3) P3 P4) (Bd E b)) s
  | 0, e, s, he, _, _, _, _ => absurd he (Nat.not_lt_zero _)
  | fuel + 1, e, s, he, he0, heb, hqe, h => by
    have hb := two_lt (show 0 < w by omega)
    rw [divCorr]
    have hq := h.p0 hS
    refine WP.bind_run (rd_run hq.1.reads (by simpa using hk)) ?_
    have hdig : Mpi.dig (qs.set k ((e + 1) % 2 ^ w)) k = (e + 1) % 2 ^ w := by
      rw [Mpi.dig_set _ _ _ _ hk, if_pos rfl]
    have hdec : ((e + 1) % 2 ^ w + 2 ^ w - 1) % 2 ^ w = e := by
      rcases Nat.lt_or_ge (e + 1) (2 ^ w) with h1 | h1
      · rw [Nat.mod_eq_of_lt h1, show e + 1 + 2 ^ w - 1 = e + 2 ^ w by omega, Nat.add_mod_right, Nat.mod_eq_of_lt heb]
      · have : e + 1 = 2 ^ w := by omega
        rw [this, Nat.mod_self, Nat.zero_add, Nat.mod_eq_of_lt (by omega)]; omega
    dsimp only
    rw [hdig, hdec]
    obtain ⟨s1, e1, st1, h1⟩ := wr_run (S := S) (k := k) (d := e) hq (by simpa using hk)
    refine WP.bind_run e1 ?_
    rw [List.set_set] at h1
    have h := h.s0 hS st1 (P := HD (qs.set k e) nq) h1
    obtain ⟨z, hz, m1, -, -, hm1⟩ := h.p1 hS
    have py := h.p4 hS
    refine put2 (S := S) hm1 (Nat.le_refl _) (by omega) (y1 _ py) (y0 _ py) y00 fun s2 st2 h2 => ?_
    have h := h.s1 hS st2 (P := HD [yt1, yt] 2) h2
    have hq := h.p0 hS
    refine WP.bind_run (rd_run hq.1.reads (by simpa using hk)) ?_
    dsimp only
    rw [Mpi.dig_set _ _ _ _ hk, if_pos rfl]
    have hn : Norm (2 ^ w) ⟨false, [yt1, yt]⟩ := ⟨by simp [hyt1, hyt'], by unfold Mpi.TopNZ; simp; omega⟩
    have hi : (⟨false, [yt1, yt]⟩ : Mpi).toInt (2 ^ w) = ((yt1 + 2 ^ w * yt : Nat) : Int) := by
      rw [Mpi.toInt_false rfl]; simp [Mpi.val_cons, Mpi.val_nil]
    have hml := mulDig_leaf (sp := S) hw (r := b + 1) (x := b + 1) ⟨hn, hi⟩ h2 ⟨_, ⟨hn, hi⟩, h2.1.reads⟩ heb (by omega) (by omega)
      (Or.inl fun m hm => by rw [same_num hm h2.1.reads]; simp)
    refine c1 h hS (VC w (((yt1 + 2 ^ w * yt : Nat) : Int) * e) 2) (RCany w 2) (hml.mono (fun o ho => ho.2 rfl) (fun o ho => ho)) fun s3 h => ?_
    obtain ⟨ds, h2ds⟩ := h.p2 hS
    have px := h.p3 hS
    refine put3 (S := S) h2ds (Nat.le_refl _) (by omega) (x2 _ px) (x1 _ px) x10 (x0 _ px) x00 fun s4 st4 h4 => ?_
    have h := h.s2 hS st4 (P := HD [d0, d1, d2] 3) h4
    obtain ⟨m, n1, n2, n3⟩ := h.p1 hS
    refine WP.bind_run (cmpAbs_run n3.1.reads h4.1.reads) ?_
    have hv : val (2 ^ w) m.digs = e * (yt1 + 2 ^ w * yt) := by
      rw [← Mpi.natAbs_toInt, n2, Int.natAbs_mul, Int.natAbs_natCast, Int.natAbs_natCast, Nat.mul_comm]
    obtain ⟨k1, k2⟩ := Mpi.corr_cmp (show 0 < w by omega) hyt1 hyt' hd rfl heb n1.toNorm hv false
    have hT1 : ∀ o, (VC w (((yt1 + 2 ^ w * yt : Nat) : Int) * e) 2).p o → (VCpos w 2).p o := fun o ho => ⟨_, by positivity, ho⟩
    by_cases hc : Mpi.cmpAbs m ⟨false, [d0, d1, d2]⟩ = 1
    · rw [if_pos hc]
      have hlt := k1 hc
      have hqe' : Q < e := by
        rcases Nat.lt_or_ge Q e with h' | h'
        · exact h'
        · have : Q = e := by omega
          subst this; omega
      refine divCorr_res hw hS hk y1 y0 y00 x2 x1 x10 x0 x00 hyt hyt' hyt1 hd hQ fuel (e - 1) s4 (by omega) (by omega) (by omega) (by omega) ?_
      rw [Nat.sub_add_cancel (by omega), Nat.mod_eq_of_lt heb]
      exact h.le (D5.le (fun _ h => h) hT1 (fun _ h => ⟨_, h⟩) (fun _ h => h) (fun _ h => h))
    · rw [if_neg hc]
      refine WP.pure (Or.inl ⟨rfl, h.le (D5.le (fun o ho => ⟨e, hqe, he0, k2 hc, ho⟩) hT1 (fun _ h => ⟨_, h⟩) (fun _ h => h) (fun _ h => h))⟩)

theorem V.digit {Y n j : Nat} {o : Obj} (h : V w Y n o) (hj : (2 ^ w) ^ j ≤ Y) (hw : 0 < w) :
    o.cells[j]? = some (some (Y / (2 ^ w) ^ j % 2 ^ w)) := by
  obtain ⟨m, m1, m2, m3⟩ := h
  have hv : val (2 ^ w) m.digs = Y := by rw [← Mpi.natAbs_toInt, m2]; rfl
  have hl : j < m.digs.length := by
    have := lt_of_le_of_lt hj (hv ▸ Mpi.val_lt m1.digits)
    exact (Nat.pow_lt_pow_iff_right (two_lt hw)).1 this
  rw [← hv, ← Mpi.dig_eq (Nat.two_pow_pos w) m1.digits]
  obtain ⟨t, ht⟩ := m3.1.2.1
  rw [← ht, List.getElem?_append_left (by simpa using hl), List.getElem?_map]
  unfold Mpi.dig
  rw [List.getD_eq_getElem?_getD, List.getElem?_eq_getElem hl]; rfl

theorem set_same {qs : List Nat} {k d : Nat} (hk : k < qs.length) (h0 : Mpi.dig qs k = d) : qs.set k d = qs := by
  rw [← h0]
  unfold Mpi.dig
  rw [List.getD_eq_getElem?_getD, List.getElem?_eq_getElem hk]
  exact List.set_getElem_self hk

theorem divStep_res (hw : 8 ≤ w) (hS : b + 5 ≤ S) {X Y t k N : Nat} {qs : List Nat} (hlo : 2 ^ (w - 2) * (2 ^ w) ^ t ≤ Y)
    (hhi : Y < 2 ^ (w - 1) * (2 ^ w) ^ t) (hX : X < Y * (2 ^ w) ^ (k + 1)) (hN : t + (k + 1) ≤ N) (hk : k < qs.length)
    (hq0 : Mpi.dig qs k = 0) {s : St} (h : At K (D5 E b (HD qs nq) (VCpos w 2) (HDany 3) (XC w N X) (VC w Y 0)) S s) :
    WP (divStep w S b (b + 1) (b + 2) (b + 3) (b + 4) t (t + (k + 1)))
      (Res K S (D5 E b (HD (qs.set k (X / (Y * (2 ^ w) ^ k))) nq) (VCpos w 2) (HDany 3) (XC w N ((X % (Y * (2 ^ w) ^ k) : Nat) : Int)) (VC w Y 0))
        (Bd E b)) s := by
  have hb := two_lt (show 0 < w by omega)
  obtain ⟨mx, x1, x2, x3, x4⟩ := h.p3 hS
  have hxv : val (2 ^ w) mx.digs = X := by rw [← Mpi.natAbs_toInt, x2]; rfl
  have hbt : 0 < (2 ^ w) ^ t := Nat.pow_pos (by omega)
  have hYt : (2 ^ w) ^ t ≤ Y := le_trans (Nat.le_mul_of_pos_left _ (Nat.two_pow_pos _)) hlo
  unfold divStep
  refine WP.bind_run (hdr_ok x3.1) ?_
  dsimp only
  by_cases hi : t + (k + 1) > mx.digs.length
  · rw [if_pos hi]
    have hlt : X < Y * (2 ^ w) ^ k := by
      calc X < (2 ^ w) ^ mx.digs.length := hxv ▸ Mpi.val_lt x1.digits
        _ ≤ (2 ^ w) ^ (t + k) := Nat.pow_le_pow_right (by omega) (by omega)
        _ = (2 ^ w) ^ t * (2 ^ w) ^ k := pow_add _ _ _
        _ ≤ _ := Nat.mul_le_mul_right _ hYt
    rw [Nat.div_eq_of_lt hlt, Nat.mod_eq_of_lt hlt, set_same hk hq0]
    exact done5 h
  rw [if_neg hi]
  have hX0 : 0 < X := by
    rcases Nat.eq_zero_or_pos X with h0 | h0
    · rw [h0, Mpi.val_eq_zero_iff (Nat.two_pow_pos w) x1.toNorm.top] at hxv
      rw [hxv] at hi; simp at hi
    · exact h0
  have px := h.p3 hS
  have py := h.p4 hS
  have hX' : 0 < ((X : Nat) : Int) := by exact_mod_cast hX0
  obtain ⟨ht0, ht1, ht2, hds, hQb, e, he, heb, hQe, hQv, hcor⟩ := Mpi.digit_arith hw hlo hhi hX rfl rfl rfl rfl rfl
  have hk' : t + (k + 1) - t - 1 = k := by omega
  refine WP.bind_run (rd_ok (XC.digit px hX0 hN)) ?_
  refine WP.bind_run (rd_ok (V.digit py hYt (by omega))) ?_
  set yt := Y / (2 ^ w) ^ t % 2 ^ w with hyt
  set yt1 := if t = 0 then 0 else Y / (2 ^ w) ^ (t - 1) % 2 ^ w with hyt1
  set xi := X / (2 ^ w) ^ (t + (k + 1)) % 2 ^ w with hxi
  set d1 := X / (2 ^ w) ^ (t + k) % 2 ^ w with hd1
  set d0 := if t + (k + 1) ≤ 1 then 0 else X / (2 ^ w) ^ (t + (k + 1) - 2) % 2 ^ w with hd0
  set Q := X / (Y * (2 ^ w) ^ k) with hQ
  have hest : (if xi = yt then pure (2 ^ w - 1)
      else do
        let x1 ← rd (b + 3) (t + (k + 1) - 1)
        if yt = 0 then ub
        else
          let tmp := (((xi <<< w) % 2 ^ (2 * w)) ||| x1) / yt
          let tmp := if tmp > 2 ^ w - 1 then 2 ^ w - 1 else tmp
          pure (tmp &&& (2 ^ w - 1)) : M Nat) s = .ok (e, s) := by
    unfold Mpi.divEst at he
    by_cases hc : xi = yt
    · rw [if_pos hc] at he ⊢; cases he; rfl
    · rw [if_neg hc, if_neg (by omega)] at he
      cases he
      rw [if_neg hc, bind_ok (rd_ok (XC.digit px hX0 (show t + (k + 1) - 1 ≤ N by omega))), if_neg (by omega)]
      rfl
  refine WP.bind_run hest ?_
  rw [hk']
  have hq := h.p0 hS
  obtain ⟨s1, e1, st1, h1⟩ := wr_run (S := S) (k := k) (d := e) hq hk
  refine WP.bind_run e1 ?_
  have h := h.s0 hS st1 (P := HD (qs.set k e) nq) h1
  refine WP.bind_run (rd_run h1.1.reads (by simpa using hk)) ?_
  dsimp only
  rw [Mpi.dig_set _ _ _ _ hk, if_pos rfl]
  obtain ⟨s2, e2, st2, h2⟩ := wr_run (S := S) (k := k) (d := (e + 1) % 2 ^ w) h1 (by simpa using hk)
  rw [List.set_set] at h2
  refine WP.bind_run e2 ?_
  have h := h.s0 hS st2 (P := HD (qs.set k ((e + 1) % 2 ^ w)) nq) h2
  have hcorr := divCorr_res (K := K) (E := E) (P3 := XC w N X) (P4 := VC w Y 0) (i := t + (k + 1)) (t := t) (yt1 := yt1) (yt := yt) (d0 := d0) (d1 := d1)
    (d2 := xi) (Q := Q) (e0 := e) hw hS hk
    (fun o ho => V.digit ho hYt (by omega))
    (fun o ho h0 => by
      rw [hyt1, if_neg h0]
      exact V.digit ho (le_trans (Nat.pow_le_pow_right (by omega) (by omega)) hYt) (by omega))
    (fun h0 => by rw [hyt1, if_pos h0])
    (fun o ho => XC.digit ho hX0 hN)
    (fun o ho _ => XC.digit ho hX0 (show t + (k + 1) - 1 ≤ N by omega))
    (fun h0 => by omega)
    (fun o ho h0 => by
      rw [hd0, if_neg h0]
      exact XC.digit ho hX0 (show t + (k + 1) - 2 ≤ N by omega))
    (fun h0 => by rw [hd0, if_pos h0]) ht0 ht1 ht2 hds hQv (2 ^ w) e s2 heb (Nat.le_refl _) heb hQe h
  refine chk5 hcorr fun s3 h => ?_
  obtain ⟨d, k1, k2, k3, hqd⟩ := h.p0 hS
  have hdQ := hcor d k1 k2 k3
  have h := h.s0 hS (Step.refl _ _ _) (P := HD (qs.set k d) nq) hqd
  refine WP.bind_run (rd_run hqd.1.reads (by simpa using hk)) ?_
  dsimp only
  rw [Mpi.dig_set _ _ _ _ hk, if_pos rfl]
  obtain ⟨z, hz, m1, n1, n2, n3⟩ := h.p1 hS
  have py := h.p4 hS
  have hg1 : m1.neg = false := by rw [← Bool.not_eq_true, Mpi.neg_iff_of_wf n1, n2]; omega
  have hml := mulDig_leaf (sp := S) hw (r := b + 1) (x := b + 4) (d := d) ⟨n1.toNorm, n2⟩ n3 (V.rs py) (by omega) (by omega) (by omega)
    (Or.inr (by omega))
  refine c1 h hS (VC w ((Y : Int) * d) 2) (RCany w 2) (hml.mono (fun o ho => ho.2 hg1) (fun o ho => ho)) fun s4 h => ?_
  refine c1 h hS (VC w ((Y : Int) * d * 2 ^ (w * k)) 2) (VC w ((Y : Int) * d) 2) (shld_leaf (by omega) (h.p1 hS) k) fun s5 h => ?_
  have hT : ((Y : Int) * d * 2 ^ (w * k)) = ((Y * (2 ^ w) ^ k * d : Nat) : Int) := by rw [← pow_mul]; push_cast; ring
  rw [hT] at h
  refine c3 h hS (XC w N ((X : Int) - ((Y * (2 ^ w) ^ k * d : Nat) : Int))) CL
    (subX (by omega) (h.p3 hS) (V.shows (h.p1 hS)) hX' (by positivity)) fun s6 h => ?_
  obtain ⟨mx', x1', x2', x3', x4'⟩ := h.p3 hS
  refine WP.bind_run (hdr_ok x3'.1) ?_
  dsimp only
  have hYk : 0 < Y * (2 ^ w) ^ k := Nat.mul_pos (by omega) (Nat.pow_pos (by omega))
  have hdm := Nat.div_add_mod X (Y * (2 ^ w) ^ k)
  rw [← hQ] at hdm
  have hml := Nat.mod_lt X hYk
  by_cases hneg : mx'.neg = true
  · rw [if_pos hneg]
    rw [Mpi.neg_iff_of_wf x1', x2'] at hneg
    have hd : d = Q + 1 := by
      rcases Nat.lt_or_ge Q d with h' | h'
      · omega
      · have : d = Q := by omega
        subst this; omega
    refine c1 h hS (VC w (Y : Int) 2) (VC w ((Y * (2 ^ w) ^ k * d : Nat) : Int) 2) (copy_leaf (h.p1 hS) (V.shows (h.p4 hS))) fun s7 h => ?_
    refine c1 h hS (VC w ((Y : Int) * 2 ^ (w * k)) 2) (VC w (Y : Int) 2) (shld_leaf (by omega) (h.p1 hS) k) fun s8 h => ?_
    refine c3 h hS (XC w N ((X : Int) - ((Y * (2 ^ w) ^ k * d : Nat) : Int) + (Y : Int) * 2 ^ (w * k))) CL
      (addX (by omega) (h.p3 hS) (V.shows (h.p1 hS)) hneg (by positivity)) fun s9 h => ?_
    have hqd := h.p0 hS
    refine WP.bind_run (rd_run hqd.1.reads (by simpa using hk)) ?_
    dsimp only
    rw [Mpi.dig_set _ _ _ _ hk, if_pos rfl]
    obtain ⟨s10, e10, st10, h10⟩ := wr_run (S := S) (k := k) (d := (d + 2 ^ w - 1) % 2 ^ w) hqd (by simpa using hk)
    rw [List.set_set] at h10
    refine WP.bind_run e10 ?_
    have hdec : (d + 2 ^ w - 1) % 2 ^ w = Q := by
      rw [hd, show Q + 1 + 2 ^ w - 1 = Q + 2 ^ w by omega, Nat.add_mod_right, Nat.mod_eq_of_lt hQb]
    rw [hdec] at h10
    have hxe : (X : Int) - ((Y * (2 ^ w) ^ k * d : Nat) : Int) + (Y : Int) * 2 ^ (w * k) = ((X % (Y * (2 ^ w) ^ k) : Nat) : Int) := by
      rw [show (Y : Int) * 2 ^ (w * k) = ((Y * (2 ^ w) ^ k : Nat) : Int) by rw [← pow_mul]; push_cast; ring]
      rw [hd, Nat.mul_add, Nat.mul_one]
      omega
    rw [hxe] at h
    have h := h.s0 hS st10 (P := HD (qs.set k Q) nq) h10
    exact WP.pure (Or.inl ⟨rfl, h.le (D5.le (fun _ h => h) (fun _ h => ⟨_, by positivity, h⟩) (fun _ h => h) (fun _ h => h) (fun _ h => h))⟩)
  · rw [if_neg hneg]
    rw [Mpi.neg_iff_of_wf x1', x2'] at hneg
    have hd : d = Q := by
      have : d * (Y * (2 ^ w) ^ k) ≤ X := by rw [Nat.mul_comm]; omega
      have := (Nat.le_div_iff_mul_le hYk).2 this
      omega
    have hxe : (X : Int) - ((Y * (2 ^ w) ^ k * d : Nat) : Int) = ((X % (Y * (2 ^ w) ^ k) : Nat) : Int) := by
      rw [hd]; omega
    rw [hxe] at h
    rw [hd] at h
    exact WP.pure (Or.inl ⟨rfl, h.le (D5.le (fun _ h => h) (fun _ h => ⟨_, by positivity, h⟩) (fun _ h => h) (fun _ h => h) (fun _ h => h))⟩)

/-- A quotient with the value `v`. -/
def QV (w nq n v : Nat) : CP :=
  ⟨fun o => ∃ qs, Mpi.Digits (2 ^ w) qs ∧ qs.length = n ∧ val (2 ^ w) qs = v ∧ HoldsC ⟨false, qs⟩ nq o, fun _ ⟨_, _, _, _, h⟩ => Or.inr ⟨_, h.1⟩⟩

theorem divLoop_res (hw : 8 ≤ w) (hS : b + 5 ≤ S) {Y t N : Nat} (hlo : 2 ^ (w - 2) * (2 ^ w) ^ t ≤ Y)
    (hhi : Y < 2 ^ (w - 1) * (2 ^ w) ^ t) :
    ∀ (k X : Nat) (qs : List Nat) (s : St), X < Y * (2 ^ w) ^ k → t + k ≤ N → k ≤ qs.length → (∀ j, j < k → Mpi.dig qs j = 0) →
      Mpi.Digits (2 ^ w) qs → At K (D5 E b (HD qs nq) (VCpos w 2) (HDany 3) (XC w N X) (VC w Y 0)) S s →
      WP (divLoop w S b (b + 1) (b + 2) (b + 3) (b + 4) t k)
        (Res K S (D5 E b (QV w nq qs.length (val (2 ^ w) qs + X / Y)) (VCpos w 2) (HDany 3) (XC w N ((X % Y : Nat) : Int)) (VC w Y 0)) (Bd E b)) s
  | 0, X, qs, s, hX, _, _, _, hd, h => by
    rw [pow_zero, Nat.mul_one] at hX
    rw [divLoop, Nat.div_eq_of_lt hX, Nat.mod_eq_of_lt hX, Nat.add_zero]
    exact WP.pure (Or.inl ⟨rfl, h.le (D5.le (fun _ h => ⟨qs, hd, rfl, rfl, h⟩) (fun _ h => h) (fun _ h => h) (fun _ h => h) (fun _ h => h))⟩)
  | k + 1, X, qs, s, hX, hN, hk, hz, hd, h => by
    have hb := two_lt (show 0 < w by omega)
    have hbk : 0 < (2 ^ w) ^ k := Nat.pow_pos (by omega)
    have hY : 0 < Y := lt_of_lt_of_le (Nat.mul_pos (Nat.two_pow_pos _) (Nat.pow_pos (by omega))) hlo
    have hYk : 0 < Y * (2 ^ w) ^ k := Nat.mul_pos hY hbk
    have hQ : X / (Y * (2 ^ w) ^ k) < 2 ^ w := by
      rw [Nat.div_lt_iff_lt_mul hYk]
      calc X < _ := hX
        _ = _ := by rw [pow_succ]; ring
    rw [divLoop]
    refine chk5 (divStep_res hw hS hlo hhi hX hN (by omega) (hz k (by omega)) h) fun s' h' => ?_
    have := divLoop_res hw hS hlo hhi k (X % (Y * (2 ^ w) ^ k)) (qs.set k (X / (Y * (2 ^ w) ^ k))) s' (Nat.mod_lt _ hYk) (by omega)
      (by simp; omega) (fun j hj => by rw [Mpi.dig_set _ _ _ _ (by omega), if_neg (by omega)]; exact hz j (by omega))
      (Mpi.digits_set hd hQ) h'
    have hv := Mpi.val_set (2 ^ w) qs k (X / (Y * (2 ^ w) ^ k)) (by omega)
    rw [hz k (by omega), Nat.zero_mul, Nat.add_zero] at hv
    have hdiv : X / Y = X / (Y * (2 ^ w) ^ k) * (2 ^ w) ^ k + X % (Y * (2 ^ w) ^ k) / Y := by
      conv_lhs => rw [← Nat.div_add_mod X (Y * (2 ^ w) ^ k)]
      rw [Nat.mul_assoc, Nat.mul_add_div hY, Nat.mul_comm ((2 ^ w) ^ k)]
    rw [List.length_set, hv, Nat.mod_mul_right_mod, Nat.add_assoc, ← hdiv] at this
    exact this

theorem divTop_res (hw : 0 < w) (hS : b + 5 ≤ S) {Y k N : Nat} {qs : List Nat} (hY : 0 < Y) (hk : k < qs.length) :
    ∀ (fuel X c : Nat) (s : St), X / Y < fuel → c + X / Y < 2 ^ w →
      At K (D5 E b (HD (qs.set k c) nq) P1 P2 (XC w N X) (VC w Y 0)) S s →
      WP (divTop w b (b + 3) (b + 4) k fuel)
        (Res K S (D5 E b (HD (qs.set k (c + X / Y)) nq) P1 P2 (XC w N ((X % Y : Nat) : Int)) (VC w Y 0)) (Bd E b)) s
  | 0, X, c, s, hf, _, _ => absurd hf (Nat.not_lt_zero _)
  | fuel + 1, X, c, s, hf, hc, h => by
    rw [divTop]
    refine WP.bind_run (cmp_eval (w := w) (XC.shows (h.p3 hS)) (V.shows (h.p4 hS))) ?_
    by_cases hlt : X < Y
    · rw [if_neg (by rw [if_pos (by exact_mod_cast hlt)]; simp), Nat.div_eq_of_lt hlt, Nat.mod_eq_of_lt hlt]
      exact done5 h
    · have hle : Y ≤ X := by omega
      have hdiv : X / Y = (X - Y) / Y + 1 := by
        conv_lhs => rw [← Nat.sub_add_cancel hle]
        rw [Nat.add_div_right _ hY]
      rw [if_pos (by rw [if_neg (by exact_mod_cast hlt)]; split_ifs <;> decide)]
      have hq := h.p0 hS
      refine WP.bind_run (rd_run hq.1.reads (by simpa using hk)) ?_
      dsimp only
      rw [Mpi.dig_set _ _ _ _ hk, if_pos rfl, Nat.mod_eq_of_lt (Nat.lt_of_le_of_lt (Nat.add_le_add_left (by rw [hdiv]; exact Nat.le_add_left _ _) c) hc)]
      obtain ⟨s1, e1, st1, h1⟩ := wr_run (S := S) (k := k) (d := c + 1) hq (by simpa using hk)
      rw [List.set_set] at h1
      refine WP.bind_run e1 ?_
      have h := h.s0 hS st1 (P := HD (qs.set k (c + 1)) nq) h1
      refine c3 h hS (XC w N ((X : Int) - Y)) CL (subX hw (h.p3 hS) (V.shows (h.p4 hS)) (by omega) (by omega)) fun s2 h => ?_
      rw [← Nat.cast_sub hle] at h
      have := divTop_res hw hS hY hk fuel (X - Y) (c + 1) s2 (by omega) (by omega) h
      rw [← Nat.mod_eq_sub_mod hle, Nat.add_assoc, Nat.add_comm 1] at this
      rwa [hdiv]
end

/-! ### The outputs -/

theorem sign_run {S v n : Nat} {g : Bool} {s : St} {m : Mpi} (h : HoldsC m n (s.obj v)) :
    ∃ s', setSign v g s = .ok ((), s') ∧ Step S s s' v ∧ HoldsC ⟨g, m.digs⟩ n (s'.obj v) := by
  refine ⟨_, setSign_ok h.1.1 g, Step.upd _ _ _ _ _, ?_⟩
  rw [upd_obj_same]
  exact ⟨holds_upd (m' := ⟨g, m.digs⟩) h.1 rfl h.1.2.1, by rw [cells_upd rfl]; exact h.2⟩

theorem abs_sign {S v n : Nat} {s : St} {z : Int} (h : V w z n (s.obj v)) :
    ∃ s', setSign v false s = .ok ((), s') ∧ Step S s s' v ∧ V w |z| n (s'.obj v) := by
  obtain ⟨m, h1, h2, h3⟩ := h
  obtain ⟨s', e, t, h'⟩ := sign_run (S := S) (g := false) h3
  exact ⟨s', e, t, _, (wf_abs h1).1, by rw [(wf_abs h1).2, h2], h'⟩

theorem shr_inplace {S c n : Nat} {s : St} {m : Mpi} (hc : HoldsC m n (s.obj c)) (k : Nat) :
    ∃ s', shr w c c k s = .ok (0, s') ∧ Step S s s' c ∧ HoldsC (Mpi.shr w m k) n (s'.obj c) := by
  have e0 : (if c ≠ c then copy c c else pure 0 : M Int) s = .ok (0, s) := by rw [if_neg (by simp)]; rfl
  unfold shr
  by_cases hz : k = 0 ∨ m.digs.length = 0
  · refine ⟨s, ?_, Step.refl _ _ _, ?_⟩
    · rw [chk_ok e0, bind_ok (hdr_ok hc.1.1), if_pos hz]; rfl
    · unfold Mpi.shr
      rw [if_pos (by rcases hz with h | h; exact Or.inl h; exact Or.inr (List.eq_nil_of_length_eq_zero h))]
      exact hc
  · obtain ⟨s', e1, e2, e3⟩ := shr_tail (sp := S) (w := w) hc (k := k) (fun h => hz (Or.inl h)) (fun h => hz (Or.inr (by simp [h])))
    refine ⟨s', ?_, e2, e3⟩
    rw [chk_ok e0, bind_ok (hdr_ok hc.1.1), if_neg hz]; exact e1

/-- An optional output. -/
def updO (E : Env) : Option Nat → (Obj → Prop) → Env
  | none, _ => E
  | some v, P => Function.update E v P

section
variable {K : Ctx} {E : Env} {b S : Nat} {P0 P1 P2 P3 P4 : CP}

theorem D5.uE {v : Nat} (hv : v < b) {P : Obj → Prop} :
    Function.update (D5 E b P0 P1 P2 P3 P4) v P = D5 (Function.update E v P) b P0 P1 P2 P3 P4 := by
  funext u
  rw [Function.update_apply]
  unfold D5
  by_cases hu : u = v
  · subst hu
    rw [if_pos rfl, if_neg (by omega), if_neg (by omega), if_neg (by omega), if_neg (by omega), if_neg (by omega), Function.update_self]
  · rw [if_neg hu, Function.update_of_ne hu]

theorem outQ (hS : b + 5 ≤ S) {n v0 v : Nat} {s : St} {k : Unit → M Int} {Q : Int → St → Prop} (hv : v < b) (hE : ∀ o, E v o → Cl o)
    (h : At K (D5 E b (QV w nq n v0) P1 P2 P3 P4) S s)
    (hk : ∀ s', At K (D5 (Function.update E v (V w (v0 : Int) nq)) b CL P1 P2 P3 P4) S s' → WP (k ()) Q s') :
    WP (do adjust b; swap b v; let r ← setSign v false; k r) Q s := by
  obtain ⟨qs, q1, -, q3, q4⟩ := h.p0 hS
  obtain ⟨s1, e1, t1, h1, l1⟩ := adjust_run (sp := S) q4.1
  refine WP.bind_run e1 ?_
  have hV : V w (v0 : Int) nq (s1.obj b) :=
    ⟨_, ⟨⟨Mpi.digits_adjust q1, Mpi.topNZ_adjust _⟩, fun _ => rfl⟩, by rw [Mpi.toInt_false rfl, Mpi.val_adjust, q3], h1, by rw [l1]; exact q4.2⟩
  have h := h.s0 hS t1 (P := VC w v0 nq) hV
  refine WP.bind ((swap_at h (show b < S by omega) (show v < S by omega)).mono fun _ s2 h => ?_)
  rw [D5.lo hv, D5.e0, show E v = (CP.mk (E v) hE).p from rfl, D5.u0, D5.uE hv] at h
  have hv2 : V w (v0 : Int) nq (s2.obj v) := by
    have := h.objs v (by omega); rw [D5.lo hv, Function.update_self] at this; exact this
  obtain ⟨s3, e3, t3, h3⟩ := abs_sign (S := S) hv2
  refine WP.bind_run e3 (hk s3 ?_)
  rw [Nat.abs_cast] at h3
  have := step_at (P := V w (v0 : Int) nq) h (show v < S by omega) t3 h3
  rw [D5.uE hv, Function.update_idem] at this
  exact this.le (D5.le (fun o ho => hE o ho) (fun _ h => h) (fun _ h => h) (fun _ h => h) (fun _ h => h))

theorem outR (hS : b + 5 ≤ S) (hw : 0 < w) {N X norm v : Nat} {s : St} {k : Unit → M Int} {Q : Int → St → Prop} (hv : v < b) (hE : ∀ o, E v o → Cl o)
    (h : At K (D5 E b P0 P1 P2 (XC w N (X : Int)) P4) S s)
    (hk : ∀ s', At K (D5 (Function.update E v (V w ((X / 2 ^ norm : Nat) : Int) 0)) b P0 P1 P2 CL P4) S s' → WP (k ()) Q s') :
    WP (do let _ ← shr w (b + 3) (b + 3) norm; swap (b + 3) v; let r ← setSign v false; k r) Q s := by
  obtain ⟨m, m1, m2, m3, -⟩ := h.p3 hS
  obtain ⟨s1, e1, t1, h1⟩ := shr_inplace (S := S) (w := w) (n := 0) ⟨m3, Nat.zero_le _⟩ norm
  refine WP.bind_run e1 ?_
  obtain ⟨z1, z2, -⟩ := Mpi.shr_spec hw m1.toNorm norm
  have hv0 : val (2 ^ w) m.digs = X := by rw [← Mpi.natAbs_toInt, m2]; rfl
  rw [hv0] at z1
  have h := h.s3 hS t1 (P := ⟨fun o => ∃ m, Norm (2 ^ w) m ∧ val (2 ^ w) m.digs = X / 2 ^ norm ∧ HoldsC m 0 o, fun _ ⟨_, _, _, h⟩ => Or.inr ⟨_, h.1⟩⟩)
    ⟨_, z2, z1, h1⟩
  refine WP.bind ((swap_at h (show b + 3 < S by omega) (show v < S by omega)).mono fun _ s2 h => ?_)
  rw [D5.lo hv, D5.e3, show E v = (CP.mk (E v) hE).p from rfl, D5.u3, D5.uE hv] at h
  have hv2 := h.objs v (by omega)
  rw [D5.lo hv, Function.update_self] at hv2
  obtain ⟨m', n1, n2, n3⟩ := hv2
  obtain ⟨s3, e3, t3, h3⟩ := sign_run (S := S) (g := false) n3
  refine WP.bind_run e3 (hk s3 ?_)
  have := step_at (P := V w ((X / 2 ^ norm : Nat) : Int) 0) h (show v < S by omega) t3
    ⟨⟨false, m'.digs⟩, ⟨⟨n1.digits, n1.top⟩, fun _ => rfl⟩, by rw [Mpi.toInt_false rfl]; exact congrArg _ n2, h3⟩
  rw [D5.uE hv, Function.update_idem] at this
  exact this.le (D5.le (fun _ h => h) (fun _ h => h) (fun _ h => h) (fun o ho => hE o ho) (fun _ h => h))

theorem shrd_ok {S a n : Nat} {s : St} {z : Int} (ha : V w z n (s.obj a)) (k : Nat) (h0 : 0 ≤ z) :
    ∃ s', shrd a k s = .ok (0, s') ∧ Step S s s' a ∧ V w (z / 2 ^ (w * k)) n (s'.obj a) := by
  obtain ⟨m, r1, r2, r3⟩ := ha
  obtain ⟨v, hn, hg⟩ := Mpi.shrd_spec r1.toNorm k
  obtain ⟨s', e1, e2, e3⟩ := shrd_run (sp := S) r3 k
  refine ⟨s', e1, e2, ?_⟩
  have hng : m.neg = false := by rw [← Bool.not_eq_true, Mpi.neg_iff_of_wf r1, r2]; omega
  have hg' : (Mpi.shrd m k).neg = false := by
    unfold Mpi.shrd; split_ifs <;> simp [hng]
  refine ⟨_, ⟨hn, fun _ => hg'⟩, ?_, e3⟩
  rw [Mpi.toInt_false hg', v, ← r2, Mpi.toInt_false hng, pow_mul]; push_cast; rfl

theorem divWork_res (hw : Mpi.DigitWidth w) (hS : b + 5 ≤ S) {za zb : Int} {A B len : Nat} {rq rr : Option Nat} (hA : |za| = A) (hB : |zb| = B) (hB0 : 0 < B) (hBA : B ≤ A)
    (hlen : A < (2 ^ w) ^ len) (hq : ∀ v, rq = some v → v < b ∧ ∀ o, E v o → Cl o) (hr : ∀ v, rr = some v → v < b ∧ ∀ o, E v o → Cl o) {s : St}
    (h : At K (D5 E b (HD (List.replicate (len + 2) 0) nq) (VC w 0 2) (VC w 0 3) (VC w za 0) (VC w zb 0)) S s) :
    WP (divWork w S b (b + 1) (b + 2) (b + 3) (b + 4) rq rr)
      (Res K S (D5 (updO (updO E rq (V w ((A / B : Nat) : Int) nq)) rr (V w ((A % B : Nat) : Int) 0)) b CL CL CL CL CL) (Bd E b)) s := by
  have hw8 := hw.pos
  have hw0 : 0 < w := by omega
  have hB1 := two_lt hw0
  have hb0 : 0 < 2 ^ w := by omega
  unfold divWork
  obtain ⟨s1, e1, t1, h1⟩ := abs_sign (S := S) (h.p4 hS)
  rw [hB] at h1
  have h := h.s4 hS t1 (P := VC w (B : Int) 0) h1
  refine WP.bind_run e1 ?_
  obtain ⟨s2, e2, t2, h2⟩ := abs_sign (S := S) (h.p3 hS)
  rw [hA] at h2
  have h := h.s3 hS t2 (P := VC w (A : Int) 0) h2
  refine WP.bind_run e2 ?_
  have h := h.le (D5.le (R1 := VCpos w 2) (R2 := HDany 3) (fun _ h => h) (fun _ h => ⟨0, Int.le_refl _, h⟩) (fun _ h => ⟨_, holds_zero_of_v h⟩)
    (fun _ h => h) (fun _ h => h))
  obtain ⟨mb, b1, b2, b3⟩ := h.p4 hS
  have hbv : val (2 ^ w) mb.digs = B := by rw [← Mpi.natAbs_toInt, b2]; rfl
  have hbne : mb.digs ≠ [] := fun h0 => by rw [h0, Mpi.val_nil] at hbv; omega
  refine WP.bind_run (countBits_run b3.1.reads) ?_
  obtain ⟨t, n1, n2, n3⟩ := Mpi.divNorm_spec hw b1.toNorm hbne
  rw [hbv] at n1 n2
  set norm := Mpi.divNorm w mb with hnorm
  -- shift both operands
  have hsh : WP (if Mpi.countBits w mb % w < w - 1 then chk (shl w (b + 3) (b + 3) norm) (shl w (b + 4) (b + 4) norm) else pure 0)
      (Res K S (D5 E b (HD (List.replicate (len + 2) 0) nq) (VCpos w 2) (HDany 3) (VC w ((A * 2 ^ norm : Nat) : Int) 0) (VC w ((B * 2 ^ norm : Nat) : Int) 0))
        (Bd E b)) s2 := by
    by_cases hc : Mpi.countBits w mb % w < w - 1
    · rw [if_pos hc]
      refine c3 h hS (VC w ((A * 2 ^ norm : Nat) : Int) 0) (VCany w 0) ((shl_leaf hw0 (h.p3 hS) (V.shows (h.p3 hS)) norm (by omega)).mono
        (fun o ho => by push_cast; exact ho) (fun o ho => ho)) fun s3 h => ?_
      have := leaf_at h (show b + 4 < S by omega) ((shl_leaf (sp := S) hw0 (h.p4 hS) (V.shows (h.p4 hS)) norm (by omega)).mono
        (g' := (VC w ((B * 2 ^ norm : Nat) : Int) 0).p) (b' := (VCany w 0).p) (fun o ho => by push_cast; exact ho) (fun o ho => ho))
      rw [D5.u4, D5.u4] at this
      exact this.mono fun st s' h' => h'.le (Le.refl _ _) D5.bd
    · rw [if_neg hc]
      have : norm = 0 := by rw [hnorm]; unfold Mpi.divNorm; exact if_neg hc
      rw [this, pow_zero, Nat.mul_one, Nat.mul_one]
      exact done5 h
  refine chk5 hsh fun s3 h => ?_
  -- the sizes
  obtain ⟨mx, x1, x2, x3⟩ := h.p3 hS
  obtain ⟨my, y1, y2, y3⟩ := h.p4 hS
  refine WP.bind_run (hdr_ok x3.1.1) ?_
  refine WP.bind_run (hdr_ok y3.1.1) ?_
  dsimp only
  have hN0 : 0 < 2 ^ norm := Nat.two_pow_pos _
  have hxv : val (2 ^ w) mx.digs = A * 2 ^ norm := by rw [← Mpi.natAbs_toInt, x2]; rfl
  have hyv : val (2 ^ w) my.digs = B * 2 ^ norm := by rw [← Mpi.natAbs_toInt, y2]; rfl
  have hp : 2 ^ (w - 1) * 2 = 2 ^ w := by rw [← pow_succ]; congr 1; omega
  have hbt : 0 < (2 ^ w) ^ t := Nat.pow_pos hb0
  have hYt : (2 ^ w) ^ t ≤ B * 2 ^ norm := le_trans (Nat.le_mul_of_pos_left _ (Nat.two_pow_pos _)) n1
  have hylen : my.digs.length = t + 1 := by
    refine Mpi.length_eq_of_bounds hB1 y1.toNorm (by rw [hyv]; exact hYt) ?_
    rw [hyv]
    calc B * 2 ^ norm < 2 ^ (w - 1) * (2 ^ w) ^ t := n2
      _ ≤ 2 ^ w * (2 ^ w) ^ t := Nat.mul_le_mul_right _ (by omega)
      _ = (2 ^ w) ^ (t + 1) := by rw [pow_succ]; ring
  have hXY : B * 2 ^ norm ≤ A * 2 ^ norm := Nat.mul_le_mul_right _ hBA
  have hxne : mx.digs ≠ [] := by
    intro h0
    rw [h0, Mpi.val_nil] at hxv
    omega
  have hxlt := Mpi.val_lt x1.digits
  have hxl : 0 < mx.digs.length := List.length_pos_of_ne_nil hxne
  have hxal : mx.digs.length ≤ len + 1 := by
    refine Mpi.length_le_of_lt hB1 x1.toNorm ?_
    rw [hxv, pow_succ]
    calc A * 2 ^ norm < (2 ^ w) ^ len * 2 ^ norm := Nat.mul_lt_mul_of_pos_right hlen hN0
      _ ≤ (2 ^ w) ^ len * 2 ^ w := Nat.mul_le_mul_left _ (Nat.pow_le_pow_right (by omega) n3.le)
  have htn : t ≤ mx.digs.length - 1 := by
    have h1 : (2 ^ w) ^ t < (2 ^ w) ^ mx.digs.length := by omega
    have := (Nat.pow_lt_pow_iff_right hB1).1 h1
    omega
  rw [hxv] at hxlt
  rw [hylen, Nat.add_sub_cancel]
  obtain ⟨n, hn⟩ : ∃ n, mx.digs.length = n + 1 := ⟨mx.digs.length - 1, by omega⟩
  rw [hn] at hxlt htn hxal ⊢
  rw [Nat.add_sub_cancel] at htn ⊢
  obtain ⟨k, rfl⟩ : ∃ k, n = t + k := ⟨n - t, by omega⟩
  rw [Nat.add_sub_cancel_left]
  have hdef : (if Mpi.countBits w mb % w < w - 1 then w - 1 - Mpi.countBits w mb % w else 0) = norm := rfl
  rw [hdef]
  set X := A * 2 ^ norm with hX
  set Y := B * 2 ^ norm with hY
  have hbk : 0 < (2 ^ w) ^ k := Nat.pow_pos hb0
  have hYk : 0 < Y * (2 ^ w) ^ k := Nat.mul_pos (by omega) hbk
  have hlead : X / (Y * (2 ^ w) ^ k) < 2 ^ w := by
    rw [Nat.div_lt_iff_lt_mul hYk]
    calc X < (2 ^ w) ^ (t + k + 1) := hxlt
      _ = 2 ^ w * ((2 ^ w) ^ t * (2 ^ w) ^ k) := by rw [pow_succ, pow_add]; ring
      _ ≤ 2 ^ w * (Y * (2 ^ w) ^ k) := Nat.mul_le_mul_left _ (Nat.mul_le_mul_right _ hYt)
  have h := h.s3 hS (Step.refl _ _ _) (P := XC w (t + k) X) ⟨mx, x1, x2, x3.1, Or.inr fun j hj hj' => absurd hj (by omega)⟩
  refine c4 h hS (VC w ((Y * (2 ^ w) ^ k : Nat) : Int) 0) (VC w (Y : Int) 0) ((shld_leaf hw0 (h.p4 hS) k).mono
    (fun o ho => by rw [← pow_mul]; push_cast; exact ho) (fun o ho => ho)) fun s4 h => ?_
  have hkl : k < (List.replicate (len + 2) 0).length := by simp; omega
  have hz : ∀ j, Mpi.dig (List.replicate (len + 2) 0) j = 0 := fun j => Mpi.dig_replicate_zero _ _
  rw [← set_same hkl (hz k)] at h
  refine chk5 (divTop_res hw0 hS hYk hkl (2 ^ w) X 0 s4 hlead (by omega) h) fun s5 h => ?_
  obtain ⟨s6, e6, t6, h6⟩ := shrd_ok (S := S) (h.p4 hS) k (by positivity)
  refine WP.bind_run e6 ?_
  have hYY : ((Y * (2 ^ w) ^ k : Nat) : Int) / 2 ^ (w * k) = (Y : Int) := by
    rw [← pow_mul]; push_cast
    exact Int.mul_ediv_cancel _ (by positivity)
  rw [hYY] at h6
  have h := h.s4 hS t6 (P := VC w (Y : Int) 0) h6
  rw [Nat.zero_add] at h
  have hl := divLoop_res hw8 hS n1 n2 k (X % (Y * (2 ^ w) ^ k)) _ s6 (Nat.mod_lt _ hYk) (Nat.le_refl (t + k))
    (by rw [List.length_set]; exact hkl.le) (fun j hj => by rw [Mpi.dig_set _ _ _ _ hkl, if_neg (by omega)]; exact hz j)
    (Mpi.digits_set (Mpi.digits_replicate_zero hb0 _) hlead) h
  have hv := Mpi.val_set (2 ^ w) (List.replicate (len + 2) 0) k (X / (Y * (2 ^ w) ^ k)) hkl
  rw [hz, Nat.zero_mul, Nat.add_zero, Mpi.val_replicate_zero, Nat.zero_add] at hv
  have hquo : X / (Y * (2 ^ w) ^ k) * (2 ^ w) ^ k + X % (Y * (2 ^ w) ^ k) / Y = A / B := by
    rw [← Nat.mul_div_mul_right A B hN0, ← hX, ← hY]
    conv_rhs => rw [← Nat.div_add_mod X (Y * (2 ^ w) ^ k)]
    rw [Nat.mul_assoc Y, Nat.mul_add_div (by omega), Nat.mul_comm]
  rw [hv, hquo, Nat.mod_mul_right_mod] at hl
  have hrem : X % Y / 2 ^ norm = A % B := by rw [hX, hY, Nat.mul_mod_mul_right, Nat.mul_div_cancel _ hN0]
  refine chk5 hl fun s7 h => ?_
  have fin : ∀ {E' : Env} {P0 P1 P2 P3 P4 : CP} {s : St}, At K (D5 E' b P0 P1 P2 P3 P4) S s →
      WP (pure 0) (Res K S (D5 E' b CL CL CL CL CL) (Bd E b)) s := fun h => WP.pure (Or.inl ⟨rfl, h.le D5.bd⟩)
  cases hrq : rq with
  | none =>
    cases hrr : rr with
    | none => exact fin h
    | some v =>
      obtain ⟨r1, r2⟩ := hr v hrr
      refine outR hS hw0 (k := fun _ => pure 0) r1 r2 h fun s8 h => ?_
      rw [hrem] at h
      exact fin h
  | some u =>
    obtain ⟨q1, q2⟩ := hq u hrq
    cases hrr : rr with
    | none =>
      refine outQ hS (k := fun _ => pure 0) q1 q2 h fun s8 h => ?_
      exact fin h
    | some v =>
      obtain ⟨r1, r2⟩ := hr v hrr
      refine outQ hS q1 q2 h fun s8 h => ?_
      refine outR hS hw0 (k := fun _ => pure 0) r1 (fun o ho => ?_) h fun s9 h => ?_
      · rw [Function.update_apply] at ho
        split_ifs at ho with huv
        · exact ho.clr
        · exact r2 o ho
      · rw [hrem] at h
        exact fin h
end

end Verif.Mem
