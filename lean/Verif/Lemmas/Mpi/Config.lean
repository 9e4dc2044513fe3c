import Verif.Model.Mpi.Config
import Verif.Lemmas.Mpi.NatRep
import Verif.Lemmas.Mpi.Inv
import Mathlib.Tactic.LinearCombination
/-! Division by shifting and subtracting, and the binary inverse. -/
namespace Verif.Mpi

theorem natRep_shl {w : Nat} (hw : 8 ≤ w) {x : Mpi} {n : Nat} (h : NatRep w x n) (k : Nat) :
    NatRep w (shl w x k) (n * 2 ^ k) := by
  obtain ⟨h1, h2, h3⟩ := shl_spec (w := w) (by omega) h.norm k
  exact ⟨h2, h3.trans h.neg, by rw [h1, h.value]⟩

theorem natRep_cmp_le {w : Nat} {x y : Mpi} {m n : Nat} (hx : NatRep w x m) (hy : NatRep w y n) :
    cmp x y ≤ 0 ↔ m ≤ n := by
  have h1 := hx.cmp_lt hy
  have h2 := hx.cmp_eq hy
  omega

theorem divSmallLoop_spec {w : Nat} (hw : 8 ≤ w) {A B : Nat} : ∀ (n : Nat) {ta tb tq q : Mpi} {TA Q : Nat},
    NatRep w ta TA → NatRep w tb (B * 2 ^ n) → NatRep w tq (2 ^ n) → NatRep w q Q → TA < B * 2 ^ (n + 1) →
    Q * B + TA = A → ∃ q' r' Q' R', divSmallLoop w (n + 1) ta tb tq q = some (q', r') ∧ NatRep w q' Q' ∧
      NatRep w r' R' ∧ Q' * B + R' = A ∧ R' < B := by
  intro n
  induction n with
  | zero =>
    intro ta tb tq q TA Q h1 h2 h3 h4 hlt he
    rw [divSmallLoop]
    simp only [pow_zero, Nat.mul_one, Nat.zero_add, pow_one] at h2 h3 hlt
    by_cases hc : cmp tb ta ≤ 0
    · have hle := (natRep_cmp_le h2 h1).1 hc
      obtain ⟨ta', e1, r1⟩ := h1.sub hw h2 hle
      obtain ⟨q', e2, r2⟩ := h4.add hw h3
      refine ⟨q', ta', _, _, ?_, r2, r1, ?_, by omega⟩
      · rw [if_pos hc, e1]; simp only [Option.bind_eq_bind, Option.bind_some]; rw [e2]; rfl
      · rw [Nat.add_mul]; omega
    · have hle := mt (natRep_cmp_le h2 h1).2 hc
      refine ⟨q, ta, _, _, ?_, h4, h1, he, by omega⟩
      rw [if_neg hc]; rfl
  | succ n ih =>
    intro ta tb tq q TA Q h1 h2 h3 h4 hlt he
    have s2 : NatRep w (shr w tb 1) (B * 2 ^ n) := by
      have := h2.shr hw 1
      rwa [show B * 2 ^ (n + 1) / 2 ^ 1 = B * 2 ^ n by
        rw [pow_succ, ← Nat.mul_assoc, pow_one, Nat.mul_div_cancel _ (by omega)]] at this
    have s3 : NatRep w (shr w tq 1) (2 ^ n) := by
      have := h3.shr hw 1
      rwa [show 2 ^ (n + 1) / 2 ^ 1 = 2 ^ n by rw [pow_succ, pow_one, Nat.mul_div_cancel _ (by omega)]] at this
    rw [divSmallLoop]
    have e2' : B * 2 ^ (n + 1 + 1) = 2 * (B * 2 ^ (n + 1)) := by rw [pow_succ]; ring
    by_cases hc : cmp tb ta ≤ 0
    · have hle := (natRep_cmp_le h2 h1).1 hc
      obtain ⟨ta', e1, r1⟩ := h1.sub hw h2 hle
      obtain ⟨q', e2, r2⟩ := h4.add hw h3
      rw [if_pos hc, e1]
      simp only [Option.bind_eq_bind, Option.bind_some]
      rw [e2, Option.bind_some]
      refine ih r1 s2 s3 r2 (by omega) ?_
      rw [Nat.add_mul, Nat.mul_comm (2 ^ (n + 1)) B]; omega
    · have hle := mt (natRep_cmp_le h2 h1).2 hc
      rw [if_neg hc]
      exact ih h1 s2 s3 h4 (by omega) he

/-- Both divisions give the same objects. -/
theorem divAbsSmall_eq {w : Nat} (hw : DigitWidth w) {a b : Mpi} (ha : Norm (2 ^ w) a) (hb : Norm (2 ^ w) b) :
    divAbsSmall w a b = divAbs w a b := by
  have hw8 := hw.pos
  unfold divAbsSmall
  by_cases hb0 : b.digs = []
  · rw [if_pos hb0, divAbs, if_pos hb0]
  rw [if_neg hb0]
  by_cases hc : cmpAbs a b < 0
  · rw [if_pos hc, divAbs, if_neg hb0, if_pos hc]
  rw [if_neg hc]
  have hle : val (2 ^ w) b.digs ≤ val (2 ^ w) a.digs := by
    rcases cmpAbs_spec (Nat.two_pow_pos w) ha hb with h | h | h <;> omega
  obtain ⟨q, r, d1, d2, d3, d4, d5, d6, d7⟩ := divAbs_spec hw ha hb hb0 hle
  have hVb := val_pos_of_ne hb hb0
  rw [d1]
  have na : NatRep w ⟨false, a.digs⟩ (val (2 ^ w) a.digs) := ⟨⟨ha.digits, ha.top⟩, rfl, rfl⟩
  have nb : NatRep w ⟨false, b.digs⟩ (val (2 ^ w) b.digs) := ⟨⟨hb.digits, hb.top⟩, rfl, rfl⟩
  rw [countBits_spec hw ha, countBits_spec hw hb]
  set n := Nat.size (val (2 ^ w) a.digs) - Nat.size (val (2 ^ w) b.digs) with hn
  have hlt : val (2 ^ w) a.digs < val (2 ^ w) b.digs * 2 ^ (n + 1) := by
    have h1 := Nat.lt_size_self (val (2 ^ w) a.digs)
    have h2 : 2 ^ (Nat.size (val (2 ^ w) b.digs) - 1) ≤ val (2 ^ w) b.digs := by
      rw [← Nat.lt_size]
      have := Nat.size_pos.2 hVb
      omega
    have h3 := Nat.size_pos.2 hVb
    have h4 := Nat.size_le_size hle
    calc val (2 ^ w) a.digs < 2 ^ Nat.size (val (2 ^ w) a.digs) := h1
      _ = 2 ^ (Nat.size (val (2 ^ w) b.digs) - 1) * 2 ^ (n + 1) := by rw [← pow_add]; congr 1; omega
      _ ≤ _ := Nat.mul_le_mul_right _ h2
  obtain ⟨q', r', Q', R', e1, e2, e3, e4, e5⟩ := divSmallLoop_spec hw8 (A := val (2 ^ w) a.digs) n na
    (natRep_shl hw8 nb n) (by simpa using natRep_shl hw8 (NatRep.one hw8) n) (NatRep.zero w) hlt (by omega)
  dsimp only
  rw [e1]
  have hQ : Q' = val (2 ^ w) a.digs / val (2 ^ w) b.digs := by
    rw [← e4, Nat.add_comm, Nat.add_mul_div_right _ _ hVb, Nat.div_eq_of_lt e5, Nat.zero_add]
  have hR : R' = val (2 ^ w) a.digs % val (2 ^ w) b.digs := by
    rw [← e4, Nat.add_comm, Nat.add_mul_mod_self_right, Nat.mod_eq_of_lt e5]
  have hq : q' = q := e2.unique ⟨d2, d4, by rw [d6, hQ]⟩
  have hr : r' = r := e3.unique ⟨d3, d5, by rw [d7, hR]⟩
  subst hq hr
  have h1 := e2.neg
  have h2 := e3.neg
  obtain ⟨_, _⟩ := q'
  obtain ⟨_, _⟩ := r'
  simp only at h1 h2
  subst h1 h2
  rfl

/-- `z` is the well-formed representation of `v`. -/
structure IRep (w : Nat) (z : Mpi) (v : Int) : Prop where
  wf : WF (2 ^ w) z
  eq : z.toInt (2 ^ w) = v

namespace IRep
variable {w : Nat} {x y : Mpi} {u v : Int}

theorem nat {n : Nat} (h : NatRep w x n) : IRep w x n := ⟨h.wf, h.toInt⟩

theorem add (hw : 8 ≤ w) (hx : IRep w x u) (hy : IRep w y v) : ∃ z, Mpi.add (2 ^ w) x y = some z ∧ IRep w z (u + v) := by
  obtain ⟨z, h1, h2, h3, h4⟩ := add_norm (one_lt_two_pow (w := w) (by omega)) hx.wf.toNorm hy.wf.toNorm
  refine ⟨z, h1, ⟨h3, fun e => ?_⟩, by rw [h2, hx.eq, hy.eq]⟩
  cases hz : z.neg with
  | false => rfl
  | true =>
    obtain ⟨a, b, -⟩ := h4 e hz
    rw [hx.wf.zero_nonneg b] at a; cases a

theorem sub (hw : 8 ≤ w) (hx : IRep w x u) (hy : IRep w y v) : ∃ z, Mpi.sub (2 ^ w) x y = some z ∧ IRep w z (u - v) := by
  obtain ⟨z, h1, h2, h3, h4⟩ := sub_norm (one_lt_two_pow (w := w) (by omega)) hx.wf.toNorm hy.wf.toNorm
  refine ⟨z, h1, ⟨h3, fun e => ?_⟩, by rw [h2, hx.eq, hy.eq]⟩
  cases hz : z.neg with
  | false => rfl
  | true =>
    obtain ⟨a, b, -⟩ := h4 e hz
    rw [hx.wf.zero_nonneg b] at a; cases a

theorem half (hw : 8 ≤ w) (hx : IRep w x (2 * u)) : IRep w (Mpi.shr w x 1) u := by
  obtain ⟨h1, -⟩ := shr_correct (w := w) (by omega) x hx.wf 1
  refine ⟨shr_wf (by omega) x hx.wf 1 ?_, ?_⟩
  · cases hn : x.neg with
    | false => exact Or.inl rfl
    | true =>
      right
      have h0 := (neg_iff_of_wf hx.wf).1 hn
      rw [hx.eq] at h0 ⊢
      omega
  · rw [h1, hx.eq, pow_one, Int.mul_tdiv_cancel_left _ (by omega)]

theorem odd (hw : 8 ≤ w) (hx : IRep w x u) : isOdd x = true ↔ u % 2 = 1 := by
  rw [isOdd_correct (w := w) (by omega), hx.eq]

theorem even (hw : 8 ≤ w) (hx : IRep w x u) : isEven x = true ↔ u % 2 = 0 := by
  rw [isEven_correct (w := w) (by omega), hx.eq]

theorem nil (hx : IRep w x u) : x.digs = [] ↔ u = 0 := by
  rw [← toInt_eq_zero_iff (Nat.two_pow_pos w) hx.wf.toNorm, hx.eq]

theorem neg (hx : IRep w x u) : x.neg = true ↔ u < 0 := by
  rw [neg_iff_of_wf hx.wf, hx.eq]

theorem cmp_ge (hx : IRep w x u) (hy : IRep w y v) : cmp x y ≥ 0 ↔ v ≤ u := by
  obtain ⟨h1, h2, h3⟩ := cmp_correct (Nat.two_pow_pos w) x y hx.wf hy.wf
  rw [hx.eq, hy.eq] at h1 h2 h3
  rcases lt_trichotomy u v with h | h | h
  · rw [h1.2 h]; omega
  · rw [h2.2 h]; omega
  · rw [h3.2 h]; omega

theorem unique (hx : IRep w x u) (hy : IRep w y u) (h0 : 0 ≤ u) : x = y :=
  (NatRep.of_wf hx.wf (n := u.toNat) (by rw [hx.eq]; omega)).unique
    (NatRep.of_wf hy.wf (n := u.toNat) (by rw [hy.eq]; omega))

end IRep

/-- A combination with an even value has even coefficients after the correction. -/
theorem fix_even {A M C1 C2 T : Int} (hodd : A % 2 = 1 ∨ M % 2 = 1) (hT : T % 2 = 0) (he : C1 * A + C2 * M = T)
    (h : C1 % 2 = 1 ∨ C2 % 2 = 1) : (C1 + M) % 2 = 0 ∧ (C2 - A) % 2 = 0 := by
  have h1 : (C1 * A + C2 * M) % 2 = 0 := by rw [he, hT]
  rw [Int.add_emod, Int.mul_emod, Int.mul_emod C2 M] at h1
  rcases Int.emod_two_eq_zero_or_one A with a | a <;> rcases Int.emod_two_eq_zero_or_one M with m | m <;>
    rcases Int.emod_two_eq_zero_or_one C1 with c | c <;> rcases Int.emod_two_eq_zero_or_one C2 with d | d <;>
    simp [a, m, c, d] at h1 hodd h ⊢ <;> omega

/-- The halving loop: it takes out the factors two and keeps the combination. -/
theorem invHalve_spec {w : Nat} (hw : 8 ≤ w) {ta tb : Mpi} {A M : Int} (ha : IRep w ta A) (hb : IRep w tb M)
    (hodd : A % 2 = 1 ∨ M % 2 = 1) : ∀ (k : Nat) {t c1 c2 : Mpi} {T C1 C2 : Int}, T ≤ k → 0 < T → IRep w t T →
    IRep w c1 C1 → IRep w c2 C2 → C1 * A + C2 * M = T →
    ∃ t' c1' c2' T' C1' C2', IRep w t' T' ∧ IRep w c1' C1' ∧ IRep w c2' C2' ∧ 0 < T' ∧ T' ≤ T ∧
      C1' * A + C2' * M = T' ∧ T' ∣ T ∧ ∀ n : Nat, T < n → invHalve w ta tb n t c1 c2 = .ok (t', c1', c2') := by
  intro k
  induction k with
  | zero => intro t c1 c2 T C1 C2 h1 h2; omega
  | succ k ih =>
    intro t c1 c2 T C1 C2 hk h0 ht h1 h2 he
    by_cases hT : T % 2 = 0
    · obtain ⟨S, rfl⟩ : ∃ S, T = 2 * S := ⟨T / 2, by omega⟩
      have ht' := IRep.half hw ht
      have hev := (ht.even hw).2 hT
      by_cases hc : C1 % 2 = 1 ∨ C2 % 2 = 1
      · obtain ⟨f1, f2⟩ := fix_even hodd hT he hc
        obtain ⟨x1, e1, r1⟩ := h1.add hw hb
        obtain ⟨x2, e2, r2⟩ := h2.sub hw ha
        obtain ⟨D1, d1⟩ : ∃ D, C1 + M = 2 * D := ⟨(C1 + M) / 2, by omega⟩
        obtain ⟨D2, d2⟩ : ∃ D, C2 - A = 2 * D := ⟨(C2 - A) / 2, by omega⟩
        rw [d1] at r1
        rw [d2] at r2
        obtain ⟨t', c1', c2', T', C1', C2', g1, g2, g3, g4, g5, g6, g7, g8⟩ :=
          ih (by omega) (by omega) ht' (IRep.half hw r1) (IRep.half hw r2)
            (by
              have : 2 * (D1 * A + D2 * M) = 2 * S := by linear_combination he - A * d1 - M * d2
              omega)
        refine ⟨t', c1', c2', T', C1', C2', g1, g2, g3, g4, by omega, g6, g7.mul_left 2, fun n hn => ?_⟩
        obtain ⟨m, rfl⟩ : ∃ m, n = m + 1 := ⟨n - 1, by omega⟩
        have hc' : (isOdd c1 || isOdd c2) = true := by
          rw [Bool.or_eq_true, h1.odd hw, h2.odd hw]; exact hc
        rw [invHalve, if_pos hev, if_pos hc', e1]
        simp only [binCall, BinOut.bind]
        rw [e2]
        simp only []
        exact g8 m (by omega)
      · obtain ⟨D1, rfl⟩ : ∃ D, C1 = 2 * D := ⟨C1 / 2, by omega⟩
        obtain ⟨D2, rfl⟩ : ∃ D, C2 = 2 * D := ⟨C2 / 2, by omega⟩
        obtain ⟨t', c1', c2', T', C1', C2', g1, g2, g3, g4, g5, g6, g7, g8⟩ :=
          ih (by omega) (by omega) ht' (IRep.half hw h1) (IRep.half hw h2)
            (by
              have : 2 * (D1 * A + D2 * M) = 2 * S := by linear_combination he
              omega)
        refine ⟨t', c1', c2', T', C1', C2', g1, g2, g3, g4, by omega, g6, g7.mul_left 2, fun n hn => ?_⟩
        obtain ⟨m, rfl⟩ : ∃ m, n = m + 1 := ⟨n - 1, by omega⟩
        have hc' : ¬ (isOdd c1 || isOdd c2) = true := by
          rw [Bool.or_eq_true, h1.odd hw, h2.odd hw]; exact hc
        rw [invHalve, if_pos hev, if_neg hc']
        exact g8 m (by omega)
    · refine ⟨t, c1, c2, T, C1, C2, ht, h1, h2, h0, le_refl _, he, dvd_refl _, fun n hn => ?_⟩
      obtain ⟨m, rfl⟩ : ∃ m, n = m + 1 := ⟨n - 1, by omega⟩
      rw [invHalve, if_neg (mt (ht.even hw).1 hT)]

/-- The main loop ends with a combination that divides both numbers. -/
theorem invBinLoop_spec {w : Nat} (hw : 8 ≤ w) {ta tb : Mpi} {A M : Int} (ha : IRep w ta A) (hb : IRep w tb M)
    (hodd : A % 2 = 1 ∨ M % 2 = 1) : ∀ (k : Nat) {tu u1 u2 tv v1 v2 : Mpi} {TU U1 U2 TV V1 V2 : Int}, TU + TV ≤ k → 0 < TU →
    0 < TV → IRep w tu TU → IRep w u1 U1 → IRep w u2 U2 → IRep w tv TV → IRep w v1 V1 → IRep w v2 V2 →
    U1 * A + U2 * M = TU → V1 * A + V2 * M = TV →
    ∃ v V E D, IRep w v V ∧ 0 < D ∧ V * A + E * M = D ∧ D ∣ TU ∧ D ∣ TV ∧
      ∀ n m : Nat, TU + TV < n → TU + TV < m → invBinLoop w ta tb n m tu u1 u2 tv v1 v2 = .ok v := by
  intro k
  induction k with
  | zero => intro tu u1 u2 tv v1 v2 TU U1 U2 TV V1 V2 h1 h2 h3; omega
  | succ k ih =>
    intro tu u1 u2 tv v1 v2 TU U1 U2 TV V1 V2 hk hU hV a1 a2 a3 b1 b2 b3 he hf
    obtain ⟨tu', u1', u2', TU', U1', U2', g1, g2, g3, g4, g5, g6, g7, g8⟩ :=
      invHalve_spec hw ha hb hodd TU.toNat (by omega) hU a1 a2 a3 he
    obtain ⟨tv', v1', v2', TV', V1', V2', i1, i2, i3, i4, i5, i6, i7, i8⟩ :=
      invHalve_spec hw ha hb hodd TV.toNat (by omega) hV b1 b2 b3 hf
    by_cases hc : TV' ≤ TU'
    · obtain ⟨x, e1, r1⟩ := g1.sub hw i1
      obtain ⟨x1, e2, r2⟩ := g2.sub hw i2
      obtain ⟨x2, e3, r3⟩ := g3.sub hw i3
      have step : ∀ n m : Nat, TU + TV < n → TU + TV < m + 1 → invBinLoop w ta tb n (m + 1) tu u1 u2 tv v1 v2 =
          if x.digs = [] then .ok v1' else invBinLoop w ta tb n m x x1 x2 tv' v1' v2' := by
        intro n m hn hm
        rw [invBinLoop, g8 n (by omega)]
        simp only [BinOut.bind]
        rw [i8 n (by omega)]
        simp only [BinOut.bind]
        rw [if_pos ((g1.cmp_ge i1).2 hc), e1]
        simp only [binCall]
        rw [e2]
        simp only []
        rw [e3]
      by_cases hx : TU' - TV' = 0
      · refine ⟨v1', V1', V2', TV', i2, i4, i6, ?_, i7, fun n m hn hm => ?_⟩
        · rw [show TV' = TU' by omega]; exact g7
        · obtain ⟨m, rfl⟩ : ∃ l, m = l + 1 := ⟨m - 1, by omega⟩
          rw [step n m hn hm, if_pos (r1.nil.2 hx)]
      · obtain ⟨v, V, E, D, j1, j2, j3, j4, j5, j6⟩ := ih (by omega) (by omega) i4 r1 r2 r3 i1 i2 i3
          (by linear_combination g6 - i6) i6
        refine ⟨v, V, E, D, j1, j2, j3, ?_, j5.trans i7, fun n m hn hm => ?_⟩
        · have := dvd_add j4 j5
          rw [sub_add_cancel] at this
          exact this.trans g7
        · obtain ⟨m, rfl⟩ : ∃ l, m = l + 1 := ⟨m - 1, by omega⟩
          rw [step n m hn hm, if_neg (mt r1.nil.1 hx)]
          exact j6 n m (by omega) (by omega)
    · obtain ⟨x, e1, r1⟩ := i1.sub hw g1
      obtain ⟨x1, e2, r2⟩ := i2.sub hw g2
      obtain ⟨x2, e3, r3⟩ := i3.sub hw g3
      obtain ⟨v, V, E, D, j1, j2, j3, j4, j5, j6⟩ := ih (by omega) g4 (by omega) g1 g2 g3 r1 r2 r3 g6
        (by linear_combination i6 - g6)
      refine ⟨v, V, E, D, j1, j2, j3, j4.trans g7, ?_, fun n m hn hm => ?_⟩
      · have := dvd_add j5 j4
        rw [sub_add_cancel] at this
        exact this.trans i7
      · obtain ⟨m, rfl⟩ : ∃ l, m = l + 1 := ⟨m - 1, by omega⟩
        rw [invBinLoop, g8 n (by omega)]
        simp only [BinOut.bind]
        rw [i8 n (by omega)]
        simp only [BinOut.bind]
        rw [if_neg (mt (g1.cmp_ge i1).1 hc), e1]
        simp only [binCall]
        rw [e2]
        simp only []
        rw [e3]
        simp only []
        rw [if_neg (mt g1.nil.1 (by omega))]
        exact j6 n m (by omega) (by omega)

theorem invUp_spec {w : Nat} (hw : 8 ≤ w) {m : Mpi} {M : Int} (hm : IRep w m M) (hM : 0 < M) : ∀ (k : Nat) {v : Mpi}
    {V : Int}, -V ≤ k → IRep w v V → ∃ v' V', IRep w v' V' ∧ 0 ≤ V' ∧ V' ≡ V [ZMOD M] ∧
      ∀ n : Nat, -V < n → 0 < n → invUp w m n v = .ok v' := by
  intro k
  induction k with
  | zero =>
    intro v V hk h
    refine ⟨v, V, h, by omega, Int.ModEq.refl _, fun n _ hn => ?_⟩
    obtain ⟨n, rfl⟩ : ∃ l, n = l + 1 := ⟨n - 1, by omega⟩
    rw [invUp, if_neg fun hc => by have := h.neg.1 hc.2; omega]
  | succ k ih =>
    intro v V hk h
    by_cases h0 : V < 0
    · obtain ⟨x, e, r⟩ := h.add hw hm
      obtain ⟨v', V', a1, a2, a3, a4⟩ := ih (by omega) r
      refine ⟨v', V', a1, a2, a3.trans (by simp [Int.ModEq]), fun n hn h1 => ?_⟩
      obtain ⟨n, rfl⟩ : ∃ l, n = l + 1 := ⟨n - 1, by omega⟩
      rw [invUp, if_pos ⟨mt h.nil.1 (by omega), h.neg.2 h0⟩, e]
      simp only [binCall, BinOut.bind]
      exact a4 n (by omega) (by omega)
    · refine ⟨v, V, h, by omega, Int.ModEq.refl _, fun n _ hn => ?_⟩
      obtain ⟨n, rfl⟩ : ∃ l, n = l + 1 := ⟨n - 1, by omega⟩
      rw [invUp, if_neg fun hc => by have := h.neg.1 hc.2; omega]

theorem invDown_spec {w : Nat} (hw : 8 ≤ w) {m : Mpi} {M : Int} (hm : IRep w m M) (hM : 0 < M) : ∀ (k : Nat) {v : Mpi}
    {V : Int}, V ≤ k → 0 ≤ V → IRep w v V → ∃ v' V', IRep w v' V' ∧ 0 ≤ V' ∧ V' < M ∧ V' ≡ V [ZMOD M] ∧
      ∀ n : Nat, V < n → invDown w m n v = .ok v' := by
  intro k
  induction k with
  | zero =>
    intro v V hk h0 h
    refine ⟨v, V, h, by omega, by omega, Int.ModEq.refl _, fun n hn => ?_⟩
    obtain ⟨n, rfl⟩ : ∃ l, n = l + 1 := ⟨n - 1, by omega⟩
    rw [invDown, if_neg fun hc => by have := (h.cmp_ge hm).1 hc; omega]
  | succ k ih =>
    intro v V hk h0 h
    by_cases hc : M ≤ V
    · obtain ⟨x, e, r⟩ := h.sub hw hm
      obtain ⟨v', V', a1, a2, a3, a4, a5⟩ := ih (by omega) (by omega) r
      refine ⟨v', V', a1, a2, a3, a4.trans (by simp [Int.ModEq]), fun n hn => ?_⟩
      obtain ⟨n, rfl⟩ : ∃ l, n = l + 1 := ⟨n - 1, by omega⟩
      rw [invDown, if_pos ((h.cmp_ge hm).2 hc), e]
      simp only [binCall, BinOut.bind]
      exact a5 n (by omega)
    · refine ⟨v, V, h, by omega, by omega, Int.ModEq.refl _, fun n hn => ?_⟩
      obtain ⟨n, rfl⟩ : ∃ l, n = l + 1 := ⟨n - 1, by omega⟩
      rw [invDown, if_neg (mt (h.cmp_ge hm).1 hc)]

theorem dvd_emod_iff' {d x m : Int} (h : d ∣ m) : d ∣ x % m ↔ d ∣ x := by
  rw [Int.emod_def]
  exact ⟨fun k => by simpa using dvd_add k (h.mul_right (x / m)), fun k => dvd_sub k (h.mul_right _)⟩

/-- The binary inverse: what it returns when not both numbers are even. -/
theorem invBin_spec {w : Nat} (hw : DigitWidth w) {x m : Mpi} {X M : Int} (hx : IRep w x X) (hm : IRep w m M)
    (hM : 0 < M) (h0 : ¬ M ∣ X) (hodd : X % 2 = 1 ∨ M % 2 = 1) :
    ∃ r R, IRep w r R ∧ 0 ≤ R ∧ R < M ∧ X * R ≡ Int.gcd X M [ZMOD M] ∧
      ∃ N, ∀ n, N ≤ n → invBin w n x m = .ok r := by
  have hw8 := hw.pos
  obtain ⟨ta, e1, r1, r2⟩ := mod_rep hw (⟨hx.wf.toNorm, hx.eq⟩ : Rep w x X) hx.wf.zero_nonneg
    (⟨hm.wf.toNorm, hm.eq⟩ : Rep w m M) hM
  have ha : IRep w ta (X % M) := ⟨wf_of_norm_false r1.1 r2, r1.2⟩
  have hA : 0 < X % M := by
    have h1 := Int.emod_nonneg X (show M ≠ 0 by omega)
    have h2 : X % M ≠ 0 := fun h => h0 (Int.dvd_of_emod_eq_zero h)
    omega
  have hAM : X % M < M := Int.emod_lt_of_pos X hM
  have hodd' : X % M % 2 = 1 ∨ M % 2 = 1 := by
    rcases Int.emod_two_eq_zero_or_one M with h | h
    · left
      obtain ⟨c, rfl⟩ : ∃ c, M = 2 * c := ⟨M / 2, by omega⟩
      rw [Int.emod_emod_of_dvd _ ⟨c, rfl⟩]
      omega
    · exact Or.inr h
  have one := IRep.nat (NatRep.one hw8)
  have zero := IRep.nat (NatRep.zero w)
  obtain ⟨v, V, E, D, j1, j2, j3, j4, j5, j6⟩ := invBinLoop_spec hw8 ha hm hodd' (X % M + M).toNat (by omega) hA hM ha one
    zero hm zero one (by simp) (by simp)
  obtain ⟨v', V', k1, k2, k3, k4⟩ := invUp_spec hw8 hm hM (-V).toNat (by omega) j1
  obtain ⟨v'', V'', l1, l2, l3, l4, l5⟩ := invDown_spec hw8 hm hM V'.toNat (by omega) k2 k1
  have hD : D = Int.gcd X M := by
    have hg1 : (Int.gcd X M : Int) ∣ D := by
      rw [← j3]
      refine dvd_add (Dvd.dvd.mul_left ?_ _) ((Int.gcd_dvd_right ..).mul_left _)
      rw [dvd_emod_iff' (Int.gcd_dvd_right ..)]
      exact Int.gcd_dvd_left ..
    have hg2 : D ∣ Int.gcd X M := Int.dvd_coe_gcd ((dvd_emod_iff' j5).1 j4) j5
    exact Int.dvd_antisymm (by omega) (by omega) hg2 hg1
  refine ⟨v'', V'', l1, l2, l3, ?_, (X % M + M).toNat + (-V).toNat + V'.toNat + 1, fun n hn => ?_⟩
  · rw [← hD, ← j3]
    calc X * V'' ≡ X * V [ZMOD M] := (l4.trans k3).mul_left X
      _ ≡ V * (X % M) + E * M [ZMOD M] := by
        rw [mul_comm X V]
        have h1 : V * X ≡ V * (X % M) [ZMOD M] := (Int.mod_modEq X M).symm.mul_left V
        refine h1.trans ?_
        simp [Int.ModEq]
  · rw [invBin, e1]
    simp only [binCall, BinOut.bind]
    rw [j6 n n (by omega) (by omega)]
    simp only [BinOut.bind]
    rw [k4 n (by omega) (by omega)]
    simp only [BinOut.bind]
    exact l5 n (by omega)

/-- Halving zero does not end. -/
theorem invHalve_hang {w : Nat} (hw : 8 ≤ w) {ta tb : Mpi} {M : Nat} (ha : NatRep w ta 0) (hb : NatRep w tb M) :
    ∀ (n : Nat) {t c1 c2 : Mpi} {C1 C2 : Nat}, NatRep w t 0 → NatRep w c1 C1 → NatRep w c2 C2 →
    invHalve w ta tb n t c1 c2 = .hang := by
  intro n
  induction n with
  | zero => intros; rfl
  | succ n ih =>
    intro t c1 c2 C1 C2 h0 h1 h2
    have hev : isEven t = true := ((IRep.nat h0).even hw).2 rfl
    have ht : NatRep w (shr w t 1) 0 := by simpa using h0.shr hw 1
    rw [invHalve, if_pos hev]
    split
    · obtain ⟨x1, e1, r1⟩ := h1.add hw hb
      obtain ⟨x2, e2, r2⟩ := h2.sub hw ha (Nat.zero_le _)
      rw [e1]
      simp only [binCall, BinOut.bind]
      rw [e2]
      exact ih ht (r1.shr hw 1) (r2.shr hw 1)
    · exact ih ht (h1.shr hw 1) (h2.shr hw 1)

theorem invBin_hang {w : Nat} (hw : DigitWidth w) {x m : Mpi} {X M : Int} (hx : IRep w x X) (hm : IRep w m M)
    (hM : 0 < M) (h0 : M ∣ X) (n : Nat) : invBin w n x m = .hang := by
  have hw8 := hw.pos
  obtain ⟨ta, e1, r1, r2⟩ := mod_rep hw (⟨hx.wf.toNorm, hx.eq⟩ : Rep w x X) hx.wf.zero_nonneg
    (⟨hm.wf.toNorm, hm.eq⟩ : Rep w m M) hM
  have ha : NatRep w ta 0 := NatRep.of_rep r1 r2 (by rw [Int.emod_eq_zero_of_dvd h0]; rfl)
  have hm' : NatRep w m M.toNat := NatRep.of_wf hm.wf (by rw [hm.eq]; omega)
  rw [invBin, e1]
  simp only [binCall, BinOut.bind]
  cases n with
  | zero => rfl
  | succ n =>
    rw [invBinLoop, invHalve_hang hw8 ha hm' (n + 1) ha (NatRep.one hw8) (NatRep.zero w)]
    rfl

end Verif.Mpi
