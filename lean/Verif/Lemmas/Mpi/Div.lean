import Verif.Model.Mpi.Div
import Verif.Lemmas.Mpi.SqrBaseline
namespace Verif.Mpi

/-! ## digits by index -/

theorem dig_eq {b : Nat} (hb : 0 < b) : ∀ {xs : List Nat} (_ : Digits b xs) (i : Nat),
    dig xs i = val b xs / b ^ i % b
  | [], _, i => by simp [dig_nil]
  | x :: xs, h, 0 => by
    rw [digits_cons] at h
    rw [dig_cons_zero, val_cons, pow_zero, Nat.div_one, Nat.add_mul_mod_self_left,
      Nat.mod_eq_of_lt h.1]
  | x :: xs, h, i + 1 => by
    rw [digits_cons] at h
    rw [dig_cons_succ, dig_eq hb h.2 i, val_cons, pow_succ', ← Nat.div_div_eq_div_mul,
      Nat.add_mul_div_left _ _ hb, Nat.div_eq_of_lt h.1, Nat.zero_add]

theorem dig_seg (f : Nat → Nat) (n i : Nat) : dig (seg f 0 n) i = if i < n then f i else 0 := by
  unfold dig
  rw [List.getD_eq_getElem?_getD, seg_getElem?]
  split <;> simp

theorem dig_set (q : List Nat) (k v j : Nat) (hk : k < q.length) :
    dig (q.set k v) j = if j = k then v else dig q j := by
  unfold dig
  rw [List.getD_eq_getElem?_getD, List.getD_eq_getElem?_getD, List.getElem?_set]
  by_cases h : k = j
  · subst h; simp [hk]
  · simp [h, Ne.symm h]

theorem val_set (b : Nat) : ∀ (q : List Nat) (k v : Nat), k < q.length →
    val b (q.set k v) + dig q k * b ^ k = val b q + v * b ^ k
  | [], _, _, h => by simp at h
  | d :: q, 0, v, _ => by simp [dig_cons_zero]; omega
  | d :: q, k + 1, v, h => by
    have := val_set b q k v (by simpa using h)
    simp only [List.set_cons_succ, val_cons, dig_cons_succ]
    have e1 : dig q k * b ^ (k + 1) = b * (dig q k * b ^ k) := by rw [pow_succ]; ring
    have e2 : v * b ^ (k + 1) = b * (v * b ^ k) := by rw [pow_succ]; ring
    rw [e1, e2]
    have : b * (val b (q.set k v) + dig q k * b ^ k) = b * (val b q + v * b ^ k) := by rw [this]
    rw [Nat.mul_add, Nat.mul_add] at this
    omega

theorem digits_set {b : Nat} {q : List Nat} (h : Digits b q) {k v : Nat} (hv : v < b) :
    Digits b (q.set k v) := by
  intro d hd
  rcases List.mem_or_eq_of_mem_set hd with h1 | h1
  · exact h d h1
  · rw [h1]; exact hv

theorem ofMpi_mpi (z : Mpi) : (ofMpi z).mpi = z := by
  unfold ofMpi Obj.mpi
  have : seg (fun i => dig z.digs i) 0 z.digs.length = z.digs := by
    apply List.ext_getElem?
    intro i
    rw [seg_getElem?]
    split
    next h => simp [dig, h]
    next h => simp; omega
  rw [this]

theorem used_eq_length (o : Obj) : o.mpi.digs.length = o.used := by simp [Obj.mpi]

/-! ## the working number -/

/-- The object holds the natural number `X`, and digits above are clean up to `N`. -/
structure XOK (w N : Nat) (x : Obj) (X : Nat) : Prop where
  norm : Norm (2 ^ w) x.mpi
  neg : x.neg = false
  val : val (2 ^ w) x.mpi.digs = X
  clean : Clean N x

theorem XOK.used_pos {w N : Nat} {x : Obj} {X : Nat} (h : XOK w N x X) (hX : 0 < X) :
    0 < x.used := by
  rcases Nat.eq_zero_or_pos x.used with h0 | h0
  · have := h.val
    rw [Obj.mpi, h0] at this
    simp only [seg, val_nil] at this
    omega
  · exact h0

theorem Clean.strong {N : Nat} {x : Obj} (h : Clean N x) (hu : 0 < x.used) :
    ∀ j, x.used ≤ j → j ≤ N → x.data j = 0 := by
  rcases h with h | h
  · omega
  · exact h

theorem subInto_ok {w N : Nat} (hw : 0 < w) {x : Obj} {X T : Nat} (hx : XOK w N x X) (hX : 0 < X)
    {t : Mpi} (ht : Norm (2 ^ w) t) (htn : t.neg = false) (hT : val (2 ^ w) t.digs = T) :
    ∃ x', subInto (2 ^ w) x t = some x' ∧ Norm (2 ^ w) x'.mpi ∧ Clean N x' ∧
      (T ≤ X → XOK w N x' (X - T)) ∧
      (X < T → x'.neg = true ∧ val (2 ^ w) x'.mpi.digs = T - X) := by
  have hb := one_lt_two_pow hw
  have hu := hx.used_pos hX
  obtain ⟨s', z, h1, h2, ⟨h3, -⟩, h4⟩ := subS_refines hb 0 0 1
    (fun p => if p = 0 then x else ofMpi t) (by simpa using hx.norm)
    (by simpa [ofMpi_mpi] using ht)
  simp only [if_true, one_ne_zero, if_false] at h2 h4
  rw [ofMpi_mpi] at h2
  obtain ⟨z', e1, e2, e3, e4⟩ := sub_norm hb hx.norm ht
  obtain rfl : z' = z := by rw [h2] at e1; exact (Option.some.inj e1).symm
  have hxi : x.mpi.toInt (2 ^ w) = X := by rw [toInt_false (by exact hx.neg), hx.val]
  rw [hxi, toInt_false htn, hT] at e2
  have hcl : Clean N (s' 0) := h4 (by rw [hx.neg]; exact htn.symm) N
    (fun j hj hjN => hx.clean.strong hu j (by omega) hjN)
  have hn : (s' 0).neg = z'.neg := by rw [← h3]; rfl
  refine ⟨s' 0, by unfold subInto; rw [h1]; rfl, by rw [h3]; exact e3, hcl, fun hle => ?_,
    fun hlt => ?_⟩
  · have hzn : z'.neg = false := by
      cases hz : z'.neg with
      | false => rfl
      | true =>
        have : z'.digs = [] := by
          rw [← toInt_eq_zero_iff (b := 2 ^ w) (by omega) e3]
          have h5 := natAbs_toInt (2 ^ w) z'
          unfold Mpi.toInt at e2 ⊢
          rw [hz] at e2 ⊢
          simp only [if_true] at e2 ⊢
          omega
        have := (e4 this hz).1
        rw [show x.mpi.neg = x.neg from rfl, hx.neg] at this
        simp at this
    refine ⟨by rw [h3]; exact e3, by rw [hn, hzn], ?_, hcl⟩
    rw [h3]
    rw [toInt_false hzn] at e2
    omega
  · have hzn : z'.neg = true := by
      cases hz : z'.neg with
      | true => rfl
      | false => rw [toInt_false hz] at e2; omega
    refine ⟨by rw [hn, hzn], ?_⟩
    rw [h3, ← natAbs_toInt, e2]
    omega

theorem addInto_ok {w N : Nat} (hw : 0 < w) {x : Obj} {V T : Nat} (hx : Norm (2 ^ w) x.mpi)
    (hxn : x.neg = true) (hV : val (2 ^ w) x.mpi.digs = V) (hV0 : 0 < V) (hc : Clean N x)
    {t : Mpi} (ht : Norm (2 ^ w) t) (htn : t.neg = false) (hT : val (2 ^ w) t.digs = T)
    (hle : V ≤ T) : ∃ x', addInto (2 ^ w) x t = some x' ∧ XOK w N x' (T - V) := by
  have hb := one_lt_two_pow hw
  have hu : 0 < x.used := by
    rcases Nat.eq_zero_or_pos x.used with h0 | h0
    · rw [Obj.mpi, h0] at hV
      simp only [seg, val_nil] at hV
      omega
    · exact h0
  obtain ⟨s', z, h1, h2, ⟨h3, -⟩, h4⟩ := addS_refines hb 0 0 1
    (fun p => if p = 0 then x else ofMpi t) (by simpa using hx)
    (by simpa [ofMpi_mpi] using ht)
  simp only [if_true, one_ne_zero, if_false] at h2 h4
  rw [ofMpi_mpi] at h2
  obtain ⟨z', e1, e2, e3, e4⟩ := add_norm hb hx ht
  obtain rfl : z' = z := by rw [h2] at e1; exact (Option.some.inj e1).symm
  have hxi : x.mpi.toInt (2 ^ w) = -(V : Int) := by
    unfold Mpi.toInt
    rw [hV, show x.mpi.neg = x.neg from rfl, hxn]; rfl
  rw [hxi, toInt_false htn, hT] at e2
  have hcl : Clean N (s' 0) := h4 (by rw [hxn]; show true ≠ t.neg; rw [htn]; simp) N
    (fun j hj hjN => hc.strong hu j (by omega) hjN)
  have hn : (s' 0).neg = z'.neg := by rw [← h3]; rfl
  have hzn : z'.neg = false := by
    cases hz : z'.neg with
    | false => rfl
    | true =>
      have : z'.digs = [] := by
        rw [← toInt_eq_zero_iff (b := 2 ^ w) (by omega) e3]
        unfold Mpi.toInt at e2 ⊢
        rw [hz] at e2 ⊢
        simp only [if_true] at e2 ⊢
        omega
      have h5 := (e4 this hz).2.1
      rw [h5] at hV
      simp only [val_nil] at hV
      omega
  refine ⟨s' 0, by unfold addInto; rw [h1]; rfl, by rw [h3]; exact e3, by rw [hn, hzn], ?_, hcl⟩
  rw [h3]
  rw [toInt_false hzn] at e2
  omega

/-! ## arithmetic of quotient digit estimation -/

/-- A multiple of the divisor that fits gives a multiple of its top digits that fits. -/
theorem est_lower {b X Y q t k : Nat} (hb : 0 < b) (c : Nat)
    (h : q * Y * b ^ k ≤ X) : q * (Y * c / b ^ t) ≤ X * c / b ^ (t + k) := by
  rw [Nat.le_div_iff_mul_le (Nat.pow_pos hb), pow_add]
  calc q * (Y * c / b ^ t) * (b ^ t * b ^ k) = q * (Y * c / b ^ t * b ^ t) * b ^ k := by ring
    _ ≤ q * (Y * c) * b ^ k := by
      apply Nat.mul_le_mul_right; apply Nat.mul_le_mul_left; exact Nat.div_mul_le_self _ _
    _ = q * Y * b ^ k * c := by ring
    _ ≤ X * c := Nat.mul_le_mul_right _ h

/-- If `q` times the top digits fits, and `q` is not larger than those digits plus one, then `q - 1` times
the whole divisor fits. -/
theorem est_upper {b X Y q t k c : Nat} (hb : 0 < b) (hc : 0 < c)
    (h : q * (Y * c / b ^ t) ≤ X * c / b ^ (t + k)) (hq : q ≤ Y * c / b ^ t + 1) :
    (q - 1) * Y * b ^ k ≤ X := by
  have hp : 0 < b ^ t := Nat.pow_pos hb
  have h1 : (q - 1) * (Y * c / b ^ t + 1) ≤ X * c / b ^ (t + k) := by
    rcases Nat.eq_zero_or_pos q with h0 | h0
    · subst h0; simp
    · obtain ⟨m, rfl⟩ : ∃ m, q = m + 1 := ⟨q - 1, by omega⟩
      simp only [Nat.add_sub_cancel]
      rw [Nat.add_mul] at h
      rw [Nat.mul_add]; omega
  rw [Nat.le_div_iff_mul_le (Nat.pow_pos hb), pow_add] at h1
  have h2 : Y * c ≤ (Y * c / b ^ t + 1) * b ^ t := by
    have := Nat.lt_mul_div_succ (Y * c) hp
    rw [Nat.mul_comm (b ^ t)] at this; omega
  apply Nat.le_of_mul_le_mul_right (c := c) _ hc
  calc (q - 1) * Y * b ^ k * c = (q - 1) * (Y * c) * b ^ k := by ring
    _ ≤ (q - 1) * ((Y * c / b ^ t + 1) * b ^ t) * b ^ k := by
      apply Nat.mul_le_mul_right; apply Nat.mul_le_mul_left; exact h2
    _ = (q - 1) * (Y * c / b ^ t + 1) * (b ^ t * b ^ k) := by ring
    _ ≤ X * c := h1

theorem divEst_spec {w xi xi1 yt : Nat} (hxi : xi < 2 ^ w) (h1 : xi1 < 2 ^ w) (hy : 0 < yt) :
    ∃ e, divEst w xi xi1 yt = some e ∧ e < 2 ^ w ∧
      (∀ q, q < 2 ^ w → q * yt ≤ xi * 2 ^ w + xi1 → q ≤ e) ∧
      (xi ≠ yt → e * yt ≤ xi * 2 ^ w + xi1) := by
  have hb : 0 < 2 ^ w := Nat.two_pow_pos w
  unfold divEst
  by_cases h : xi = yt
  · rw [if_pos h]
    exact ⟨_, rfl, by omega, fun q hq _ => by omega, fun h' => absurd h h'⟩
  · rw [if_neg h, if_neg (by omega)]
    have ev : ((xi <<< w) % 2 ^ (2 * w)) ||| xi1 = xi * 2 ^ w + xi1 := by
      rw [Nat.shiftLeft_eq, Nat.mod_eq_of_lt, or_eq_add_mul h1]
      rw [two_mul, pow_add]; exact Nat.mul_lt_mul_of_pos_right hxi hb
    simp only [ev]
    rw [Nat.and_two_pow_sub_one_eq_mod]
    have hle : (xi * 2 ^ w + xi1) / yt * yt ≤ xi * 2 ^ w + xi1 := Nat.div_mul_le_self _ _
    have hge : ∀ q, q * yt ≤ xi * 2 ^ w + xi1 → q ≤ (xi * 2 ^ w + xi1) / yt := fun q hq =>
      (Nat.le_div_iff_mul_le hy).2 hq
    generalize (xi * 2 ^ w + xi1) / yt = d at *
    refine ⟨_, rfl, Nat.mod_lt _ hb, fun q hq hq2 => ?_, fun _ => ?_⟩
    · have := hge q hq2
      split
      · rw [Nat.mod_eq_of_lt (by omega)]; omega
      · rw [Nat.mod_eq_of_lt (by omega)]; omega
    · refine le_trans (Nat.mul_le_mul_right _ ?_) hle
      split
      · exact le_trans (Nat.mod_le _ _) (by omega)
      · exact Nat.mod_le _ _

/-- Result of the correction loop: not below the true digit, and the test passed. -/
theorem divCorr_spec {w yt1 yt : Nat} (hw : 8 ≤ w) (h1 : yt1 < 2 ^ w) (hy : yt < 2 ^ w)
    (hy0 : 0 < yt) {t2 : List Nat} (ht2 : Digits (2 ^ w) t2) (hl : t2.length = 3) {q : Nat}
    (hq : q * (yt1 + 2 ^ w * yt) ≤ val (2 ^ w) t2) : ∀ e, e < 2 ^ w → q ≤ e →
    ∃ d, divCorr w yt1 yt t2 e = some d ∧ q ≤ d ∧ d ≤ e ∧
      (d * (yt1 + 2 ^ w * yt) ≤ val (2 ^ w) t2 ∨ d * (yt1 + 2 ^ w * yt) < 2 ^ w * 2 ^ w) := by
  have hw0 : 0 < w := by omega
  have hb := one_lt_two_pow hw0
  -- the comparison
  have key : ∀ e, e < 2 ^ w → ∃ t1, mulDig w false ⟨false, [yt1, yt]⟩ e = some t1 ∧
      (cmpAbs t1 ⟨false, t2⟩ = 1 → val (2 ^ w) t2 < e * (yt1 + 2 ^ w * yt)) ∧
      (cmpAbs t1 ⟨false, t2⟩ ≠ 1 → e * (yt1 + 2 ^ w * yt) ≤ val (2 ^ w) t2 ∨
        e * (yt1 + 2 ^ w * yt) < 2 ^ w * 2 ^ w) := by
    intro e he
    have hn : Norm (2 ^ w) ⟨false, [yt1, yt]⟩ := by
      refine ⟨by simp [h1, hy], ?_⟩
      unfold TopNZ; simp; omega
    obtain ⟨t1, g1, g2, g3, -⟩ := mulDig_spec hw false hn he
    refine ⟨t1, g1, ?_⟩
    have hv : val (2 ^ w) t1.digs = e * (yt1 + 2 ^ w * yt) := by
      rw [← natAbs_toInt, g3, Int.natAbs_mul, natAbs_toInt]
      simp only [val_cons, val_nil, Int.natAbs_natCast, Nat.mul_zero, Nat.add_zero]
      ring
    have hlt : e * (yt1 + 2 ^ w * yt) < (2 ^ w) ^ 3 := by
      have : yt1 + 2 ^ w * yt < 2 ^ w * 2 ^ w := by
        have : 2 ^ w * (yt + 1) ≤ 2 ^ w * 2 ^ w := Nat.mul_le_mul_left _ hy
        rw [Nat.mul_add] at this; omega
      calc e * (yt1 + 2 ^ w * yt) < 2 ^ w * (2 ^ w * 2 ^ w) :=
            Nat.mul_lt_mul_of_lt_of_le he this.le (Nat.mul_pos (by omega) (by omega))
        _ = (2 ^ w) ^ 3 := by ring
    have hlen : t1.digs.length ≤ 3 := length_le_of_lt hb g2 (by rw [hv]; exact hlt)
    unfold cmpAbs
    simp only [hl]
    by_cases hl3 : t1.digs.length < 3
    · rw [if_pos hl3]
      refine ⟨fun h => by omega, fun _ => Or.inr ?_⟩
      rw [← hv]
      calc val (2 ^ w) t1.digs < (2 ^ w) ^ t1.digs.length := val_lt g2.digits
        _ ≤ (2 ^ w) ^ 2 := Nat.pow_le_pow_right (by omega) (by omega)
        _ = 2 ^ w * 2 ^ w := by ring
    · rw [if_neg hl3, if_neg (by omega)]
      have := cmpDigs_spec g2.digits ht2 (by omega)
      rw [hv] at this
      omega
  intro e
  induction e with
  | zero =>
    intro he hqe
    obtain ⟨t1, k1, k2, k3⟩ := key 0 he
    have hne : ¬ cmpAbs t1 ⟨false, t2⟩ = 1 := by
      intro h; have := k2 h; rw [Nat.zero_mul] at this; omega
    refine ⟨0, ?_, hqe, Nat.le_refl _, k3 hne⟩
    unfold divCorr
    simp only [k1, Option.bind_eq_bind, Option.bind_some]
    rw [if_neg hne]
  | succ e ih =>
    intro he hqe
    obtain ⟨t1, k1, k2, k3⟩ := key (e + 1) he
    unfold divCorr
    simp only [k1, Option.bind_eq_bind, Option.bind_some]
    by_cases hc : cmpAbs t1 ⟨false, t2⟩ = 1
    · rw [if_pos hc]
      have hlt := k2 hc
      have hqe' : q ≤ e := by
        by_contra hcon
        have : q = e + 1 := by omega
        subst this; omega
      obtain ⟨d, d1, d2, d3, d4⟩ := ih (by omega) hqe'
      exact ⟨d, d1, d2, by omega, d4⟩
    · rw [if_neg hc]
      exact ⟨e + 1, rfl, hqe, Nat.le_refl _, k3 hc⟩

/-! ## one quotient digit -/

/-- The normalised divisor: `Y` has top digit at index `t` with exactly `w - 1` bits. -/
structure YOK (w : Nat) (y : Mpi) (Y t : Nat) : Prop where
  norm : Norm (2 ^ w) y
  neg : y.neg = false
  val : val (2 ^ w) y.digs = Y
  lo : 2 ^ (w - 2) * (2 ^ w) ^ t ≤ Y
  hi : Y < 2 ^ (w - 1) * (2 ^ w) ^ t

/-- Outcome of storing quotient digit `d` at index `k`. -/
structure QSet (w : Nat) (q q' : List Nat) (k d : Nat) : Prop where
  digits : Digits (2 ^ w) q'
  length : q'.length = q.length
  val : val (2 ^ w) q' = val (2 ^ w) q + d * (2 ^ w) ^ k
  low : ∀ j, j < k → dig q' j = dig q j

theorem qset_set {w : Nat} {q : List Nat} {k d : Nat} (hq : Digits (2 ^ w) q) (hk : k < q.length)
    (h0 : dig q k = 0) (hd : d < 2 ^ w) :
    ∃ q', setDig q k d = some q' ∧ QSet w q q' k d := by
  refine ⟨q.set k d, by unfold setDig; rw [if_pos hk], digits_set hq hd, by simp, ?_, ?_⟩
  · have := val_set (2 ^ w) q k d hk
    rw [h0, Nat.zero_mul] at this
    exact this
  · intro j hj
    rw [dig_set _ _ _ _ hk, if_neg (by omega)]

theorem XOK.data_eq {w N : Nat} {x : Obj} {X : Nat} (h : XOK w N x X) (hu : 0 < x.used)
    {j : Nat} (hj : j ≤ N) : x.data j = X / (2 ^ w) ^ j % 2 ^ w := by
  rw [← h.val, ← dig_eq (Nat.two_pow_pos w) h.norm.digits]
  show _ = dig (seg x.data 0 x.used) j
  rw [dig_seg]
  split
  · rfl
  · exact h.clean.strong hu j (by omega) hj

theorem XOK.lt {w N : Nat} {x : Obj} {X : Nat} (h : XOK w N x X) : X < (2 ^ w) ^ x.used := by
  rw [← h.val, ← used_eq_length]; exact val_lt h.norm.digits

theorem XOK.le {w N : Nat} {x : Obj} {X : Nat} (h : XOK w N x X) (hu : 0 < x.used) :
    (2 ^ w) ^ (x.used - 1) ≤ X := by
  rw [← h.val, ← used_eq_length]
  apply val_pos_of_top (Nat.two_pow_pos w) h.norm.top
  intro h0
  have := used_eq_length x
  rw [h0] at this; simp at this; omega

theorem div_step_eq {b X m : Nat} (_hb : 0 < b) : X / b ^ (m + 1) * b + X / b ^ m % b = X / b ^ m := by
  rw [pow_succ, ← Nat.div_div_eq_div_mul, Nat.mul_comm]
  exact Nat.div_add_mod _ _

set_option maxHeartbeats 1000000 in
theorem divStep_spec {w N : Nat} (hw : 8 ≤ w) {y : Mpi} {Y t : Nat} (hy : YOK w y Y t) {x : Obj}
    {X k : Nat} (hx : XOK w N x X) (hN : t + (k + 1) ≤ N) (hX : X < Y * (2 ^ w) ^ (k + 1))
    {q : List Nat} (hq : Digits (2 ^ w) q) (hk : k < q.length) (h0 : dig q k = 0) :
    ∃ x' q', divStep w y t (t + (k + 1)) x q = some (x', q') ∧
      XOK w N x' (X % (Y * (2 ^ w) ^ k)) ∧ QSet w q q' k (X / (Y * (2 ^ w) ^ k)) := by
  have hw0 : 0 < w := by omega
  have hb := one_lt_two_pow hw0
  have hb0 : 0 < 2 ^ w := by omega
  have hbk : 0 < (2 ^ w) ^ k := Nat.pow_pos hb0
  have hbt : 0 < (2 ^ w) ^ t := Nat.pow_pos hb0
  have hp2 : 64 ≤ 2 ^ (w - 2) := by
    calc 64 = 2 ^ 6 := by norm_num
      _ ≤ 2 ^ (w - 2) := Nat.pow_le_pow_right (by omega) (by omega)
  have hp4 : 2 ^ w = 4 * 2 ^ (w - 2) := by
    rw [show w = (w - 2) + 2 by omega, pow_add]; simp; ring
  have hp1 : 2 ^ (w - 1) = 2 * 2 ^ (w - 2) := by
    rw [show w - 1 = (w - 2) + 1 by omega, pow_succ]; ring
  have hY0 : 0 < Y := lt_of_lt_of_le (Nat.mul_pos (by omega) hbt) hy.lo
  have hYk : 0 < Y * (2 ^ w) ^ k := Nat.mul_pos hY0 hbk
  have hbtY : (2 ^ w) ^ t ≤ Y := le_trans (Nat.le_mul_of_pos_left _ (by omega)) hy.lo
  unfold divStep
  by_cases hskip : t + (k + 1) > x.used
  · rw [if_pos hskip]
    have h1 : X < Y * (2 ^ w) ^ k := by
      calc X < (2 ^ w) ^ x.used := hx.lt
        _ ≤ (2 ^ w) ^ (t + k) := Nat.pow_le_pow_right hb0 (by omega)
        _ = (2 ^ w) ^ t * (2 ^ w) ^ k := pow_add _ _ _
        _ ≤ Y * (2 ^ w) ^ k := Nat.mul_le_mul_right _ hbtY
    refine ⟨x, q, rfl, ?_, ?_⟩
    · rw [Nat.mod_eq_of_lt h1]; exact hx
    · rw [Nat.div_eq_of_lt h1]
      exact ⟨hq, rfl, by simp, fun _ _ => rfl⟩
  · rw [if_neg hskip]
    have hu : 0 < x.used := by omega
    have hXpos : 0 < X := lt_of_lt_of_le (Nat.pow_pos hb0) (hx.le hu)
    -- digits of the divisor
    have hyt : dig y.digs t = Y / (2 ^ w) ^ t := by
      rw [dig_eq hb0 hy.norm.digits, hy.val, Nat.mod_eq_of_lt]
      rw [Nat.div_lt_iff_lt_mul hbt]
      exact lt_of_lt_of_le hy.hi (Nat.mul_le_mul_right _ (by omega))
    have hytlo : 2 ^ (w - 2) ≤ Y / (2 ^ w) ^ t := (Nat.le_div_iff_mul_le hbt).2 hy.lo
    have hythi : Y / (2 ^ w) ^ t < 2 ^ (w - 1) := (Nat.div_lt_iff_lt_mul hbt).2 hy.hi
    obtain ⟨yt1, hyt1, hyt1lt, hY2⟩ : ∃ yt1, (if t = 0 then 0 else dig y.digs (t - 1)) = yt1 ∧
        yt1 < 2 ^ w ∧ Y * 2 ^ w / (2 ^ w) ^ t = yt1 + 2 ^ w * (Y / (2 ^ w) ^ t) := by
      refine ⟨_, rfl, ?_, ?_⟩
      · split
        · exact hb0
        · rw [dig_eq hb0 hy.norm.digits]; exact Nat.mod_lt _ hb0
      · split
        next h => subst h; simp; ring
        next h =>
          obtain ⟨u, rfl⟩ : ∃ u, t = u + 1 := ⟨t - 1, by omega⟩
          rw [dig_eq hb0 hy.norm.digits, hy.val, Nat.add_sub_cancel]
          have := div_step_eq (X := Y) (m := u) hb0
          rw [pow_succ (2 ^ w) u, Nat.mul_div_mul_right _ _ hb0, ← pow_succ, Nat.mul_comm (2 ^ w)]
          omega
    -- digits of the dividend
    have hxi : x.data (t + (k + 1)) = X / (2 ^ w) ^ (t + (k + 1)) := by
      rw [hx.data_eq hu hN, Nat.mod_eq_of_lt]
      rw [Nat.div_lt_iff_lt_mul (Nat.pow_pos hb0)]
      calc X < Y * (2 ^ w) ^ (k + 1) := hX
        _ ≤ 2 ^ (w - 1) * (2 ^ w) ^ t * (2 ^ w) ^ (k + 1) := Nat.mul_le_mul_right _ hy.hi.le
        _ ≤ 2 ^ w * (2 ^ w) ^ t * (2 ^ w) ^ (k + 1) :=
            Nat.mul_le_mul_right _ (Nat.mul_le_mul_right _ (by omega))
        _ = 2 ^ w * (2 ^ w) ^ (t + (k + 1)) := by rw [pow_add]; ring
    have hxilt : x.data (t + (k + 1)) < 2 ^ w := by
      rw [hx.data_eq hu hN]; exact Nat.mod_lt _ hb0
    have hx1 : x.data (t + (k + 1) - 1) = X / (2 ^ w) ^ (t + k) % 2 ^ w := by
      rw [show t + (k + 1) - 1 = t + k by omega]
      exact hx.data_eq hu (by omega)
    have hx1lt : x.data (t + (k + 1) - 1) < 2 ^ w := by rw [hx1]; exact Nat.mod_lt _ hb0
    have hX2 : x.data (t + (k + 1)) * 2 ^ w + x.data (t + (k + 1) - 1) = X / (2 ^ w) ^ (t + k) := by
      rw [hxi, hx1]; exact div_step_eq (m := t + k) hb0
    obtain ⟨x0, hx0, hx0lt, hX3⟩ : ∃ x0,
        (if t + (k + 1) ≤ 1 then 0 else x.data (t + (k + 1) - 2)) = x0 ∧ x0 < 2 ^ w ∧
        X * 2 ^ w / (2 ^ w) ^ (t + k) = x0 + 2 ^ w * (X / (2 ^ w) ^ (t + k)) := by
      refine ⟨_, rfl, ?_, ?_⟩
      · split
        · exact hb0
        · rw [hx.data_eq hu (by omega)]; exact Nat.mod_lt _ hb0
      · split
        next h =>
          have : t + k = 0 := by omega
          rw [this]; simp; ring
        next h =>
          obtain ⟨u, hu'⟩ : ∃ u, t + k = u + 1 := ⟨t + k - 1, by omega⟩
          rw [hx.data_eq hu (by omega), show t + (k + 1) - 2 = u by omega, hu']
          have := div_step_eq (X := X) (m := u) hb0
          rw [pow_succ (2 ^ w) u, Nat.mul_div_mul_right _ _ hb0, ← pow_succ, Nat.mul_comm (2 ^ w)]
          omega
    -- the true digit
    obtain ⟨Q, hQ⟩ : ∃ Q, Q = X / (Y * (2 ^ w) ^ k) := ⟨_, rfl⟩
    have hQle : Q * Y * (2 ^ w) ^ k ≤ X := by
      rw [Nat.mul_assoc, hQ]; exact Nat.div_mul_le_self _ _
    have hQmod : X % (Y * (2 ^ w) ^ k) = X - Q * Y * (2 ^ w) ^ k := by
      rw [Nat.mul_assoc, hQ, Nat.mod_eq_sub_mul_div, Nat.mul_comm]
    have hQmax : ∀ d, d * Y * (2 ^ w) ^ k ≤ X → d ≤ Q := by
      intro d hd
      rw [hQ, Nat.le_div_iff_mul_le hYk, ← Nat.mul_assoc]; exact hd
    have hQb : Q < 2 ^ w := by
      rw [hQ, Nat.div_lt_iff_lt_mul hYk]
      calc X < Y * (2 ^ w) ^ (k + 1) := hX
        _ = 2 ^ w * (Y * (2 ^ w) ^ k) := by rw [pow_succ]; ring
    have hD := est_lower (t := t) hb0 1 hQle
    have hA := est_lower (t := t) hb0 (2 ^ w) hQle
    rw [Nat.mul_one, Nat.mul_one, ← hX2, ← hyt] at hD
    rw [hY2, hX3, ← hX2, ← hyt] at hA
    have hB := fun d => est_upper (k := k) (q := d) (Y := Y) (X := X) (t := t) (c := 2 ^ w) hb0 hb0
    have hC := fun d => est_upper (k := k) (q := d) (Y := Y) (X := X) (t := t) (c := 1) hb0
      Nat.one_pos
    rw [hY2, hX3, ← hX2, ← hyt] at hB
    simp only [Nat.mul_one] at hC
    rw [← hX2, ← hyt] at hC
    rw [← hyt] at hytlo hythi
    have hdigt : dig y.digs t < 2 ^ w := by omega
    obtain ⟨e, e1, e2, e3, e4⟩ := divEst_spec hxilt hx1lt (yt := dig y.digs t) (by omega)
    have ht2 : Digits (2 ^ w) [x0, x.data (t + (k + 1) - 1), x.data (t + (k + 1))] := by
      have := hx1lt
      rw [show t + (k + 1) - 1 = t + k by omega] at this
      simp [hx0lt, this, hxilt]
    have ht2v : val (2 ^ w) [x0, x.data (t + (k + 1) - 1), x.data (t + (k + 1))] =
        x0 + 2 ^ w * (x.data (t + (k + 1)) * 2 ^ w + x.data (t + (k + 1) - 1)) := by
      simp only [val_cons, val_nil]; ring
    obtain ⟨d, d1, d2, d3, d4⟩ := divCorr_spec hw hyt1lt hdigt (by omega) ht2 rfl
      (q := Q) (by rw [ht2v]; exact hA) e e2 (e3 Q hQb hD)
    rw [ht2v] at d4
    have hdQ : d ≤ Q + 1 := by
      have : d - 1 ≤ Q := by
        rcases d4 with d4 | d4
        · refine hQmax _ (hB d d4 ?_)
          have : 2 ^ w * 1 ≤ 2 ^ w * dig y.digs t := Nat.mul_le_mul_left _ (by omega)
          omega
        · have hlt : d * dig y.digs t < 2 ^ w := by
            have : 2 ^ w * (d * dig y.digs t) < 2 ^ w * 2 ^ w := by
              refine lt_of_le_of_lt ?_ d4
              rw [Nat.mul_add, Nat.mul_left_comm]
              omega
            exact Nat.lt_of_mul_lt_mul_left this
          have hd3 : d ≤ 3 := by
            by_contra hcon
            have : 4 * dig y.digs t ≤ d * dig y.digs t := Nat.mul_le_mul_right _ (by omega)
            omega
          refine hQmax _ (hC d ?_ (by omega))
          by_cases hxy : x.data (t + (k + 1)) = dig y.digs t
          · rw [hxy]
            have : dig y.digs t * 1 ≤ dig y.digs t * 2 ^ w := Nat.mul_le_mul_left _ (by omega)
            have h6 : d * dig y.digs t ≤ 2 ^ w * dig y.digs t := Nat.mul_le_mul_right _ (by omega)
            rw [Nat.mul_comm (2 ^ w)] at h6
            omega
          · exact le_trans (Nat.mul_le_mul_right _ d3) (e4 hxy)
      omega
    have hdb : d < 2 ^ w := by omega
    -- the multiple of the divisor
    obtain ⟨t1, t1e, t1n, t1v, t1s⟩ := mulDig_spec hw false hy.norm hdb
    have hyi : y.toInt (2 ^ w) = Y := by rw [toInt_false hy.neg, hy.val]
    have t1v' : val (2 ^ w) t1.digs = d * Y := by
      rw [← natAbs_toInt, t1v, hyi, Int.natAbs_mul]; simp [Nat.mul_comm]
    have t1neg : t1.neg = false := by
      cases hz : t1.neg with
      | false => rfl
      | true =>
        have : t1.digs = [] := by
          rw [← toInt_eq_zero_iff (b := 2 ^ w) hb0 t1n]
          rw [hyi] at t1v
          have h7 : (0 : Int) ≤ (Y : Int) * (d : Int) := by positivity
          unfold Mpi.toInt at t1v ⊢
          rw [hz] at t1v ⊢
          simp only [if_true] at t1v ⊢
          omega
        have := t1s hz this
        simp at this
    obtain ⟨u1, u2, u3, -⟩ := shld_spec hw0 t1n k
    obtain ⟨v1, v2, v3, -⟩ := shld_spec hw0 hy.norm k
    obtain ⟨x', s1, s2, s3, s4, s5⟩ := subInto_ok hw0 hx hXpos u2 (by rw [u3, t1neg])
      (by rw [u1, t1v'])
    have hkk : t + (k + 1) - t - 1 = k := by omega
    rw [if_neg (show t + (k + 1) ≠ 0 by omega)]
    simp only [hkk, e1, hyt1, hx0, d1, t1e, s1, Option.bind_eq_bind, Option.bind_some]
    rcases Nat.lt_or_ge Q d with hlt | hge
    · have hd : d = Q + 1 := by omega
      have hTgt : X < d * Y * (2 ^ w) ^ k := by
        by_contra hcon
        have := hQmax d (by omega)
        omega
      obtain ⟨g1, g2⟩ := s5 hTgt
      rw [g1]
      have hV : d * Y * (2 ^ w) ^ k = Q * Y * (2 ^ w) ^ k + Y * (2 ^ w) ^ k := by rw [hd]; ring
      obtain ⟨x'', a1, a2⟩ := addInto_ok hw0 s2 g1 g2 (by omega) s3 v2 (by rw [v3, hy.neg])
        (by rw [v1, hy.val]) (by omega)
      obtain ⟨q', b1, b2⟩ := qset_set hq hk h0 hQb
      refine ⟨x'', q', ?_, ?_, by rw [← hQ]; exact b2⟩
      · have : (d + 2 ^ w - 1) % 2 ^ w = Q := by
          rw [show d + 2 ^ w - 1 = Q + 2 ^ w by omega, Nat.add_mod_right, Nat.mod_eq_of_lt hQb]
        simp only [if_true, a1, this, b1, Option.bind_some]
      · rw [hQmod]
        rwa [show Y * (2 ^ w) ^ k - (d * Y * (2 ^ w) ^ k - X) = X - Q * Y * (2 ^ w) ^ k by omega]
          at a2
    · have hd : d = Q := by omega
      have hXO := s4 (by rw [hd]; exact hQle)
      obtain ⟨q', b1, b2⟩ := qset_set hq hk h0 hdb
      refine ⟨x', q', ?_, ?_, by rw [← hQ, ← hd]; exact b2⟩
      · simp only [hXO.neg, b1, Option.bind_some]
        simp
      · rw [hQmod, ← hd]; exact hXO

theorem divLoop_spec {w N : Nat} (hw : 8 ≤ w) {y : Mpi} {Y t : Nat} (hy : YOK w y Y t) :
    ∀ (k : Nat) {x : Obj} {X : Nat}, XOK w N x X → t + k ≤ N → X < Y * (2 ^ w) ^ k →
    ∀ {q : List Nat}, Digits (2 ^ w) q → k ≤ q.length → (∀ j, j < k → dig q j = 0) →
    ∃ x' q', divLoop w y t k x q = some (x', q') ∧ XOK w N x' (X % Y) ∧ Digits (2 ^ w) q' ∧
      val (2 ^ w) q' = val (2 ^ w) q + X / Y
  | 0, x, X, hx, _, hX, q, hq, _, _ => by
    rw [pow_zero, Nat.mul_one] at hX
    exact ⟨x, q, rfl, by rw [Nat.mod_eq_of_lt hX]; exact hx, hq, by rw [Nat.div_eq_of_lt hX]; rfl⟩
  | k + 1, x, X, hx, hN, hX, q, hq, hk, h0 => by
    have hb0 : 0 < 2 ^ w := Nat.two_pow_pos w
    have hY0 : 0 < Y := lt_of_lt_of_le (Nat.mul_pos (Nat.two_pow_pos _) (Nat.pow_pos hb0)) hy.lo
    obtain ⟨x1, q1, e1, e2, e3⟩ := divStep_spec hw hy hx hN hX hq (by omega) (h0 k (by omega))
    obtain ⟨x2, q2, f1, f2, f3, f4⟩ := divLoop_spec hw hy k e2 (by omega)
      (Nat.mod_lt _ (Nat.mul_pos hY0 (Nat.pow_pos hb0))) e3.digits (by rw [e3.length]; omega)
      (fun j hj => by rw [e3.low j hj]; exact h0 j (by omega))
    refine ⟨x2, q2, ?_, ?_, f3, ?_⟩
    · rw [divLoop]
      simp only [e1, Option.bind_eq_bind, Option.bind_some, f1]
    · rwa [Nat.mod_mul_right_mod] at f2
    · rw [f4, e3.val, Nat.add_assoc]
      congr 1
      have hX2 := Nat.div_add_mod X (Y * (2 ^ w) ^ k)
      conv_rhs => rw [← hX2]
      rw [Nat.mul_assoc, Nat.mul_add_div hY0, Nat.mul_comm]

/-! ## the leading digit -/

theorem divTop_spec {w N : Nat} (hw : 0 < w) {y : Mpi} {Y k : Nat} (hy : Norm (2 ^ w) y)
    (hyn : y.neg = false) (hyv : val (2 ^ w) y.digs = Y) (hY0 : 0 < Y) :
    ∀ (fuel : Nat) {x : Obj} {X : Nat}, XOK w N x X → X / Y < fuel →
    ∀ {q : List Nat}, Digits (2 ^ w) q → k < q.length → dig q k + X / Y < 2 ^ w →
    ∃ x' q', divTop w y k fuel x q = some (x', q') ∧ XOK w N x' (X % Y) ∧
      QSet w q q' k (X / Y)
  | 0, _, _, _, hf, _, _, _, _ => absurd hf (Nat.not_lt_zero _)
  | fuel + 1, x, X, hx, hf, q, hq, hk, hd => by
    have hb := one_lt_two_pow hw
    unfold divTop
    have hcmp : cmp x.mpi y = -1 ↔ X < Y := by
      unfold cmp
      rw [show x.mpi.neg = x.neg from rfl, hx.neg, hyn]
      have := cmpAbs_spec (b := 2 ^ w) (by omega) hx.norm hy
      rw [hx.val, hyv] at this
      simp only [Bool.false_eq_true, if_false, and_false, false_and]
      omega
    by_cases hlt : X < Y
    · rw [if_neg (by simp [hcmp.2 hlt])]
      refine ⟨x, q, rfl, by rw [Nat.mod_eq_of_lt hlt]; exact hx, ?_⟩
      rw [Nat.div_eq_of_lt hlt]
      exact ⟨hq, rfl, by simp, fun _ _ => rfl⟩
    · rw [if_pos (by rw [Ne, hcmp]; exact hlt)]
      have hle : Y ≤ X := by omega
      have hdiv : X / Y = (X - Y) / Y + 1 := by
        conv_lhs => rw [← Nat.sub_add_cancel hle]
        rw [Nat.add_div_right _ hY0]
      have hnn : 0 ≤ (X - Y) / Y := Nat.zero_le _
      rw [hdiv] at hd hf
      obtain ⟨x1, s1, -, -, s4, -⟩ := subInto_ok hw hx (by omega) hy hyn hyv
      have hx1 := s4 hle
      have hdm : (dig q k + 1) % 2 ^ w = dig q k + 1 :=
        Nat.mod_eq_of_lt (by generalize (X - Y) / Y = D at *; omega)
      have hset : setDig q k ((dig q k + 1) % 2 ^ w) = some (q.set k (dig q k + 1)) := by
        unfold setDig; rw [if_pos hk, hdm]
      obtain ⟨x2, q2, f1, f2, f3⟩ := divTop_spec hw hy hyn hyv hY0 fuel hx1 (by omega)
        (q := q.set k (dig q k + 1)) (digits_set hq (by generalize (X - Y) / Y = D at *; omega)) (by simpa using hk)
        (by rw [dig_set _ _ _ _ hk, if_pos rfl]; omega)
      refine ⟨x2, q2, ?_, ?_, ⟨f3.digits, by rw [f3.length]; simp, ?_, ?_⟩⟩
      · simp only [hset, s1, Option.bind_eq_bind, Option.bind_some, f1]
      · rwa [← Nat.mod_eq_sub_mod hle] at f2
      · have := val_set (2 ^ w) q k (dig q k + 1) hk
        rw [f3.val, hdiv, Nat.add_mul, Nat.one_mul]
        rw [Nat.add_mul, Nat.one_mul] at this
        omega
      · intro j hj
        rw [f3.low j hj, dig_set _ _ _ _ hk, if_neg (by omega)]

/-! ## normalisation -/

theorem divNorm_spec {w : Nat} (hw : DigitWidth w) {b : Mpi} (hb : Norm (2 ^ w) b)
    (hne : b.digs ≠ []) : ∃ t, 2 ^ (w - 2) * (2 ^ w) ^ t ≤ val (2 ^ w) b.digs * 2 ^ divNorm w b ∧
      val (2 ^ w) b.digs * 2 ^ divNorm w b < 2 ^ (w - 1) * (2 ^ w) ^ t ∧ divNorm w b < w := by
  have hw8 := hw.pos
  have hcb := countBits_spec hw hb
  have hB : 0 < val (2 ^ w) b.digs := by
    have := val_pos_of_top (b := 2 ^ w) (Nat.two_pow_pos w) hb.top hne
    have := Nat.pow_pos (n := b.digs.length - 1) (Nat.two_pow_pos w)
    omega
  unfold divNorm
  rw [hcb]
  generalize val (2 ^ w) b.digs = B at *
  have hlo : 2 ^ (B.size - 1) ≤ B := by
    by_contra hcon
    have h1 : B < 2 ^ (B.size - 1) := by omega
    have := Nat.size_le.2 h1
    have h2 : 0 < B.size := Nat.size_pos.2 hB
    omega
  have hhi : B < 2 ^ B.size := Nat.lt_size_self B
  have hs : 0 < B.size := Nat.size_pos.2 hB
  generalize B.size = s at *
  have hdm := Nat.div_add_mod s w
  have hml := Nat.mod_lt s (show 0 < w by omega)
  have hnorm : ∃ norm t, (if s % w < w - 1 then w - 1 - s % w else 0) = norm ∧
      s + norm = w * t + (w - 1) ∧ norm < w := by
    refine ⟨_, s / w, rfl, ?_, ?_⟩
    · split <;> omega
    · split <;> omega
  obtain ⟨norm, t, hn, ht, hnw⟩ := hnorm
  dsimp only
  rw [hn]
  refine ⟨t, ?_, ?_, hnw⟩
  · calc 2 ^ (w - 2) * (2 ^ w) ^ t = 2 ^ (s - 1 + norm) := by
          rw [← pow_mul, ← pow_add]; congr 1; omega
      _ = 2 ^ (s - 1) * 2 ^ norm := pow_add _ _ _
      _ ≤ B * 2 ^ norm := Nat.mul_le_mul_right _ hlo
  · calc B * 2 ^ norm < 2 ^ s * 2 ^ norm := Nat.mul_lt_mul_of_pos_right hhi (Nat.two_pow_pos _)
      _ = 2 ^ (w - 1) * (2 ^ w) ^ t := by
          rw [← pow_add, ← pow_mul, ← pow_add]; congr 1; omega

theorem length_eq_of_bounds {b t : Nat} (hb : 1 < b) {z : Mpi} (hz : Norm b z)
    (h1 : b ^ t ≤ val b z.digs) (h2 : val b z.digs < b ^ (t + 1)) : z.digs.length = t + 1 := by
  have h3 := length_le_of_lt hb hz h2
  have h4 : b ^ t < b ^ z.digs.length := lt_of_le_of_lt h1 (val_lt hz.digits)
  have := (Nat.pow_lt_pow_iff_right hb).1 h4
  omega

theorem dig_replicate_zero (n j : Nat) : dig (List.replicate n 0) j = 0 := by
  unfold dig
  rw [List.getD_eq_getElem?_getD, List.getElem?_replicate]
  split <;> rfl

set_option maxHeartbeats 1000000 in
theorem divAbs_spec {w : Nat} (hw : DigitWidth w) {a b : Mpi} (ha : Norm (2 ^ w) a)
    (hb : Norm (2 ^ w) b) (hb0 : b.digs ≠ []) (hle : val (2 ^ w) b.digs ≤ val (2 ^ w) a.digs) :
    ∃ q r, divAbs w a b = some (q, r) ∧ Norm (2 ^ w) q ∧ Norm (2 ^ w) r ∧ q.neg = false ∧
      r.neg = false ∧ val (2 ^ w) q.digs = val (2 ^ w) a.digs / val (2 ^ w) b.digs ∧
      val (2 ^ w) r.digs = val (2 ^ w) a.digs % val (2 ^ w) b.digs := by
  have hw8 := hw.pos
  have hw0 : 0 < w := by omega
  have hB1 := one_lt_two_pow hw0
  have hB0 : 0 < 2 ^ w := by omega
  unfold divAbs
  rw [if_neg hb0]
  have hcmp := cmpAbs_spec hB0 ha hb
  rw [if_neg (by omega)]
  obtain ⟨t, n1, n2, n3⟩ := divNorm_spec hw hb hb0
  have hVb : 0 < val (2 ^ w) b.digs := by
    have := val_pos_of_top (b := 2 ^ w) hB0 hb.top hb0
    have := Nat.pow_pos (n := b.digs.length - 1) hB0
    omega
  have hna : Norm (2 ^ w) ⟨false, a.digs⟩ := ⟨ha.digits, ha.top⟩
  have hnb : Norm (2 ^ w) ⟨false, b.digs⟩ := ⟨hb.digits, hb.top⟩
  have hala := val_lt ha.digits
  obtain ⟨x1, x2, x3⟩ := shl_spec hw0 hna (divNorm w b)
  obtain ⟨y1, y2, y3⟩ := shl_spec hw0 hnb (divNorm w b)
  dsimp only at x1 y1 x3 y3 ⊢
  generalize shl w ⟨false, a.digs⟩ (divNorm w b) = x at *
  generalize shl w ⟨false, b.digs⟩ (divNorm w b) = y at *
  generalize val (2 ^ w) b.digs = B at *
  generalize val (2 ^ w) a.digs = A at *
  generalize divNorm w b = norm at *
  have hN0 : 0 < 2 ^ norm := Nat.two_pow_pos _
  have hp : 2 ^ (w - 1) * 2 = 2 ^ w := by rw [← pow_succ]; congr 1; omega
  have hbt : 0 < (2 ^ w) ^ t := Nat.pow_pos hB0
  have hYt : (2 ^ w) ^ t ≤ B * 2 ^ norm :=
    le_trans (Nat.le_mul_of_pos_left _ (Nat.two_pow_pos _)) n1
  have hylen : y.digs.length = t + 1 := by
    refine length_eq_of_bounds hB1 y2 (by rw [y1]; exact hYt) ?_
    rw [y1]
    calc B * 2 ^ norm < 2 ^ (w - 1) * (2 ^ w) ^ t := n2
      _ ≤ 2 ^ w * (2 ^ w) ^ t := Nat.mul_le_mul_right _ (by omega)
      _ = (2 ^ w) ^ (t + 1) := by rw [pow_succ]; ring
  have hX0 : 0 < A * 2 ^ norm := Nat.mul_pos (by omega) hN0
  have hxne : x.digs ≠ [] := by
    intro h0
    rw [h0, val_nil] at x1
    omega
  have hxlt := val_lt x2.digits
  have hxge := val_pos_of_top (b := 2 ^ w) hB0 x2.top hxne
  have hxl : 0 < x.digs.length := List.length_pos_of_ne_nil hxne
  have hxal : x.digs.length ≤ a.digs.length + 1 := by
    refine length_le_of_lt hB1 x2 ?_
    rw [x1, pow_succ]
    calc A * 2 ^ norm < (2 ^ w) ^ a.digs.length * 2 ^ norm := Nat.mul_lt_mul_of_pos_right hala hN0
      _ ≤ (2 ^ w) ^ a.digs.length * 2 ^ w :=
        Nat.mul_le_mul_left _ (Nat.pow_le_pow_right (by omega) n3.le)
  have hXY : B * 2 ^ norm ≤ A * 2 ^ norm := Nat.mul_le_mul_right _ hle
  have htn : t ≤ x.digs.length - 1 := by
    have h1 : (2 ^ w) ^ t < (2 ^ w) ^ x.digs.length := by omega
    have := (Nat.pow_lt_pow_iff_right hB1).1 h1
    omega
  rw [x1] at hxlt hxge
  rw [hylen, Nat.add_sub_cancel]
  obtain ⟨n, hn⟩ : ∃ n, x.digs.length = n + 1 := ⟨x.digs.length - 1, by omega⟩
  rw [hn] at hxlt hxge htn hxal ⊢
  rw [Nat.add_sub_cancel] at hxge htn ⊢
  obtain ⟨k, rfl⟩ : ∃ k, n = t + k := ⟨n - t, by omega⟩
  rw [Nat.add_sub_cancel_left]
  obtain ⟨s1, s2, s3, -⟩ := shld_spec hw0 y2 k
  rw [y1] at s1
  obtain ⟨r1, r2, r3⟩ := shrd_spec s2 k
  have hbk : 0 < (2 ^ w) ^ k := Nat.pow_pos hB0
  rw [s1, Nat.mul_div_cancel _ hbk] at r1
  have hyok : YOK w (shrd (shld y k) k) (B * 2 ^ norm) t := by
    refine ⟨r2, ?_, r1, n1, n2⟩
    rcases r3 with r3 | r3
    · rw [r3, s3, y3]
    · rw [r3, val_nil] at r1
      omega
  have hxok : XOK w (t + k) (ofMpi x) (A * 2 ^ norm) := by
    refine ⟨by rw [ofMpi_mpi]; exact x2, x3, by rw [ofMpi_mpi, x1], Or.inr ?_⟩
    intro j hj hjN
    exact absurd (show x.digs.length ≤ j from hj) (by omega)
  have hY0 : 0 < B * 2 ^ norm * (2 ^ w) ^ k := Nat.mul_pos (by omega) hbk
  have hlead : A * 2 ^ norm / (B * 2 ^ norm * (2 ^ w) ^ k) < 2 ^ w := by
    rw [Nat.div_lt_iff_lt_mul hY0]
    calc A * 2 ^ norm < (2 ^ w) ^ (t + k + 1) := hxlt
      _ = 2 ^ w * ((2 ^ w) ^ t * (2 ^ w) ^ k) := by rw [pow_succ, pow_add]; ring
      _ ≤ 2 ^ w * (B * 2 ^ norm * (2 ^ w) ^ k) :=
        Nat.mul_le_mul_left _ (Nat.mul_le_mul_right _ hYt)
  obtain ⟨x', q', d1, d2, d3⟩ := divTop_spec hw0 s2 (by rw [s3, y3]) s1 hY0 (2 ^ w) hxok hlead
    (q := List.replicate (a.digs.length + 2) 0) (k := k) (digits_replicate_zero hB0 _)
    (by simp; omega) (by rw [dig_replicate_zero, Nat.zero_add]; exact hlead)
  obtain ⟨x'', q'', l1, l2, l3, l4⟩ := divLoop_spec hw8 hyok k d2 (Nat.le_refl _)
    (Nat.mod_lt _ hY0) d3.digits (by rw [d3.length]; simp; omega)
    (fun j hj => by rw [d3.low j hj, dig_replicate_zero])
  simp only [d1, l1, Option.bind_eq_bind, Option.bind_some]
  obtain ⟨z1, z2, -⟩ := shr_spec hw0 l2.norm norm
  refine ⟨_, _, rfl, ⟨digits_adjust l3, topNZ_adjust _⟩, ⟨z2.digits, z2.top⟩, rfl, rfl, ?_, ?_⟩
  · dsimp only
    rw [val_adjust, l4, d3.val, val_replicate_zero, Nat.zero_add]
    have hX2 := Nat.div_add_mod (A * 2 ^ norm) (B * 2 ^ norm * (2 ^ w) ^ k)
    rw [← Nat.mul_div_mul_right A B hN0]
    conv_rhs => rw [← hX2]
    rw [Nat.mul_assoc (B * 2 ^ norm), Nat.mul_add_div (by omega), Nat.mul_comm]
  · dsimp only
    rw [z1, l2.val, Nat.mod_mul_right_mod, Nat.mul_mod_mul_right, Nat.mul_div_cancel _ hN0]

theorem val_pos_of_ne {w : Nat} {b : Mpi} (hb : Norm (2 ^ w) b) (hne : b.digs ≠ []) :
    0 < val (2 ^ w) b.digs := by
  have := val_pos_of_top (b := 2 ^ w) (Nat.two_pow_pos w) hb.top hne
  have := Nat.pow_pos (n := b.digs.length - 1) (Nat.two_pow_pos w)
  omega

/-- `divAbs` in all cases with a non-zero divisor. -/
theorem divAbs_total {w : Nat} (hw : DigitWidth w) {a b : Mpi} (ha : Norm (2 ^ w) a)
    (hb : Norm (2 ^ w) b) (hb0 : b.digs ≠ []) :
    ∃ q r, divAbs w a b = some (q, r) ∧ Norm (2 ^ w) q ∧ Norm (2 ^ w) r ∧ q.neg = false ∧
      (r.neg = if val (2 ^ w) a.digs < val (2 ^ w) b.digs then a.neg else false) ∧
      val (2 ^ w) q.digs = val (2 ^ w) a.digs / val (2 ^ w) b.digs ∧
      val (2 ^ w) r.digs = val (2 ^ w) a.digs % val (2 ^ w) b.digs ∧
      (val (2 ^ w) a.digs < val (2 ^ w) b.digs → r = a) := by
  by_cases hlt : val (2 ^ w) a.digs < val (2 ^ w) b.digs
  · refine ⟨⟨false, []⟩, a, ?_, norm_zero _ _, ha, rfl, by rw [if_pos hlt], ?_, ?_, fun _ => rfl⟩
    · unfold divAbs
      have hcmp := cmpAbs_spec (Nat.two_pow_pos w) ha hb
      rw [if_neg hb0, if_pos (by omega)]
    · rw [Nat.div_eq_of_lt hlt]; rfl
    · rw [Nat.mod_eq_of_lt hlt]
  · obtain ⟨q, r, h1, h2, h3, h4, h5, h6, h7⟩ := divAbs_spec hw ha hb hb0 (by omega)
    exact ⟨q, r, h1, h2, h3, h4, by rw [if_neg hlt, h5], h6, h7, fun h => absurd h hlt⟩

/-- Signs equal, or exact division: the magnitudes are returned. -/
theorem div_plain {w : Nat} (hw : DigitWidth w) (al : DivAlias) (wq wr : Bool) {a b : Mpi}
    (ha : Norm (2 ^ w) a) (hb : Norm (2 ^ w) b) (hb0 : b.digs ≠ [])
    (h : a.neg = b.neg ∨ (wr = true ∧ val (2 ^ w) b.digs ∣ val (2 ^ w) a.digs)) :
    ∃ q r, div w al wq wr a b = .ok q r ∧ Norm (2 ^ w) q ∧ Norm (2 ^ w) r ∧ q.neg = false ∧
      (r.neg = if val (2 ^ w) a.digs < val (2 ^ w) b.digs then a.neg else false) ∧
      val (2 ^ w) q.digs = val (2 ^ w) a.digs / val (2 ^ w) b.digs ∧
      val (2 ^ w) r.digs = val (2 ^ w) a.digs % val (2 ^ w) b.digs := by
  obtain ⟨q, r, h1, h2, h3, h4, h5, h6, h7, -⟩ := divAbs_total hw ha hb hb0
  refine ⟨q, r, ?_, h2, h3, h4, h5, h6, h7⟩
  unfold div
  rw [h1]
  dsimp only
  rcases h with h | ⟨rfl, hd⟩
  · rw [h]; simp
  · have hr : r.digs = [] := by
      rw [← val_eq_zero_iff (Nat.two_pow_pos w) h3.top, h7]
      exact Nat.mod_eq_zero_of_dvd hd
    split
    · simp [hr]
    · rfl

/-- Signs different and not exact. -/
theorem div_adjusted {w : Nat} (hw : DigitWidth w) (al : DivAlias) (wq : Bool) {a b : Mpi}
    (hal : al = .none ∨ (al = .qIsB ∧ wq = false))
    (ha : Norm (2 ^ w) a) (hb : Norm (2 ^ w) b) (hb0 : b.digs ≠ []) (hs : a.neg ≠ b.neg)
    (hd : ¬ val (2 ^ w) b.digs ∣ val (2 ^ w) a.digs) :
    ∃ q r, div w al wq true a b = .ok q r ∧ WF (2 ^ w) q ∧ WF (2 ^ w) r ∧ r.neg = false ∧
      q.toInt (2 ^ w) = -((val (2 ^ w) a.digs / val (2 ^ w) b.digs : Nat) : Int) - 1 ∧
      val (2 ^ w) r.digs = val (2 ^ w) b.digs - val (2 ^ w) a.digs % val (2 ^ w) b.digs := by
  have hw0 : 0 < w := by have := hw.pos; omega
  have hB1 := one_lt_two_pow hw0
  have hVb := val_pos_of_ne hb hb0
  obtain ⟨q, r, h1, h2, h3, h4, h5, h6, h7, -⟩ := divAbs_total hw ha hb hb0
  have hr : r.digs ≠ [] := by
    rw [Ne, ← val_eq_zero_iff (Nat.two_pow_pos w) h3.top, h7]
    exact fun h => hd (Nat.dvd_of_mod_eq_zero h)
  have hone : Norm (2 ^ w) ⟨false, [1]⟩ := ⟨by simp [hB1], by simp [TopNZ]⟩
  obtain ⟨q', e1, e2, e3, e4⟩ := sub_norm hB1 (norm_with_neg h2 true) hone
  have hlt := Nat.mod_lt (val (2 ^ w) a.digs) hVb
  obtain ⟨r', f1, f2, f3, f4⟩ := subAbs_spec hB1 hb h3 (by rw [h7]; omega)
  have hx : (a.neg ^^ b.neg) = true := by
    revert hs; cases a.neg <;> cases b.neg <;> simp
  refine ⟨q', r', ?_, ⟨e3, fun h => ?_⟩, wf_of_norm_false f3 f4, f4, ?_, ?_⟩
  · unfold div
    rw [h1]
    dsimp only
    rw [if_pos hx, if_pos rfl, if_pos hr, e1]
    rcases hal with rfl | ⟨rfl, rfl⟩
    · dsimp only; rw [f1]
    · dsimp only; rw [if_neg (by simp), f1]
  · cases hn : q'.neg with
    | false => rfl
    | true => have := (e4 h hn).2.2; simp at this
  · rw [e2, toInt_false (x := ⟨false, [1]⟩) rfl]
    unfold Mpi.toInt
    simp only [if_true, h6, val_cons, val_nil, Nat.mul_zero, Nat.add_zero]
    simp
  · rw [h7] at f2; omega

theorem div_mod_rep {w : Nat} (hw : DigitWidth w) (wq : Bool) {a m : Mpi} {u v : Int}
    (ha : Rep w a u) (haz : a.digs = [] → a.neg = false) (hm : Rep w m v) (hv : 0 < v) :
    ∃ q r, div w .none wq true a m = .ok q r ∧ Norm (2 ^ w) q ∧ Rep w r (u % v) ∧
      r.neg = false := by
  have hmn := hm.nonneg hv
  have hm0 : m.digs ≠ [] := fun e => by
    have := hm.val_eq
    rw [e, val_nil] at this; omega
  have hVb := val_pos_of_ne hm.1 hm0
  have hmv : (val (2 ^ w) m.digs : Int) = v := by rw [← hm.2, toInt_false hmn]
  have hmod := Nat.mod_lt (val (2 ^ w) a.digs) hVb
  by_cases hp : a.neg = m.neg ∨ (true = true ∧ val (2 ^ w) m.digs ∣ val (2 ^ w) a.digs)
  · obtain ⟨q, r, h1, h2, h3, h4, h5, h6, h7⟩ := div_plain hw .none wq true ha.1 hm.1 hm0 hp
    rw [h1]
    have hrn : r.neg = false := by
      rw [h5]
      split
      next hlt =>
        rcases hp with hp | ⟨-, hp⟩
        · rw [hp, hmn]
        · have := Nat.eq_zero_of_dvd_of_lt hp hlt
          exact haz ((val_eq_zero_iff (Nat.two_pow_pos w) ha.1.top).1 this)
      next => rfl
    refine ⟨q, r, rfl, h2, ⟨h3, ?_⟩, hrn⟩
    rw [toInt_false hrn, h7, ← hmv, ← ha.2]
    push_cast
    rcases hp with hp | ⟨-, hp⟩
    · rw [toInt_false (by rw [hp, hmn])]
    · rw [Int.emod_eq_zero_of_dvd (by exact_mod_cast hp)]
      symm
      apply Int.emod_eq_zero_of_dvd
      unfold Mpi.toInt
      split
      · rw [Int.dvd_neg]; exact_mod_cast hp
      · exact_mod_cast hp
  · obtain ⟨q, r, h1, h2, h3, h4, h5, h6⟩ := div_adjusted hw .none wq (Or.inl rfl) ha.1 hm.1
      hm0 (fun h => hp (Or.inl h)) (fun h => hp (Or.inr ⟨rfl, h⟩))
    rw [h1]
    refine ⟨q, r, rfl, h2.toNorm, ⟨h3.toNorm, ?_⟩, h4⟩
    have han : a.neg = true := by
      cases h : a.neg with
      | true => rfl
      | false => exact absurd (Or.inl (by rw [h, hmn])) hp
    have hnd : ¬ val (2 ^ w) m.digs ∣ val (2 ^ w) a.digs := fun h => hp (Or.inr ⟨rfl, h⟩)
    have hR : val (2 ^ w) a.digs % val (2 ^ w) m.digs ≠ 0 := fun h =>
      hnd (Nat.dvd_of_mod_eq_zero h)
    rw [toInt_false h4, h6, ← hmv, ← ha.2]
    unfold Mpi.toInt
    rw [han, if_pos rfl]
    symm
    rw [Int.emod_eq_iff (by omega)]
    have hdm := Nat.div_add_mod (val (2 ^ w) a.digs) (val (2 ^ w) m.digs)
    refine ⟨by positivity, ?_, ?_⟩
    · rw [Int.natAbs_natCast]; omega
    · generalize val (2 ^ w) a.digs / val (2 ^ w) m.digs = Q at *
      generalize val (2 ^ w) a.digs % val (2 ^ w) m.digs = R at *
      generalize val (2 ^ w) a.digs = A at *
      generalize val (2 ^ w) m.digs = B at *
      refine ⟨Q + 1, ?_⟩
      rw [mul_add]
      have : (A : Int) = B * Q + R := by exact_mod_cast hdm.symm
      rw [this]
      rw [Nat.cast_sub hmod.le]
      ring

theorem mod_rep {w : Nat} (hw : DigitWidth w) {a m : Mpi} {u v : Int} (ha : Rep w a u)
    (haz : a.digs = [] → a.neg = false) (hm : Rep w m v) (hv : 0 < v) :
    ∃ r, mod w .none a m = some r ∧ Rep w r (u % v) ∧ r.neg = false := by
  obtain ⟨q, r, h1, -, h3, h4⟩ := div_mod_rep hw false ha haz hm hv
  exact ⟨r, by unfold mod; rw [h1], h3, h4⟩

/-- Division of non-negative numbers, with any outputs. -/
theorem div_rep_nonneg {w : Nat} (hw : DigitWidth w) (al : DivAlias) (wq wr : Bool) {a m : Mpi}
    {u v : Int} (ha : Rep w a u) (han : a.neg = false) (hm : Rep w m v) (hv : 0 < v) :
    ∃ q r, div w al wq wr a m = .ok q r ∧ Rep w q (u / v) ∧ q.neg = false ∧ Rep w r (u % v) ∧
      r.neg = false := by
  have hmn := hm.nonneg hv
  have hm0 : m.digs ≠ [] := fun e => by
    have := hm.val_eq
    rw [e, val_nil] at this; omega
  obtain ⟨q, r, h1, h2, h3, h4, h5, h6, h7⟩ := div_plain hw al wq wr ha.1 hm.1 hm0
    (Or.inl (by rw [han, hmn]))
  have hrn : r.neg = false := by rw [h5, han]; simp
  refine ⟨q, r, h1, ⟨h2, ?_⟩, h4, ⟨h3, ?_⟩, hrn⟩
  · rw [toInt_false h4, h6, ← ha.2, ← hm.2, toInt_false han, toInt_false hmn]; push_cast; rfl
  · rw [toInt_false hrn, h7, ← ha.2, ← hm.2, toInt_false han, toInt_false hmn]; push_cast; rfl

end Verif.Mpi
