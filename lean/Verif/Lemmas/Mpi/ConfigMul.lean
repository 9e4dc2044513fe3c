import Verif.Model.Mpi.Config
import Verif.Lemmas.Mpi.Mul
import Verif.Lemmas.Mpi.SqrBaseline
/-! Products and squares with any options. -/
namespace Verif.Mpi

theorem mulAbsOpt_spec {w : Nat} (hw : 8 ≤ w) (o : MulOpts) : ∀ (fuel : Nat) (old : Bool) (x y : Mpi),
    Norm (2 ^ w) x → Norm (2 ^ w) y → min x.digs.length y.digs.length < fuel →
    (o.comba = true → o.kara = true ∨ (o.toom = true ∧ 16 ≤ w) ∨ min x.digs.length y.digs.length < 2 ^ w) →
    ∃ z, mulAbsOpt w o fuel old x y = some z ∧
      val (2 ^ w) z.digs = val (2 ^ w) x.digs * val (2 ^ w) y.digs ∧ Norm (2 ^ w) z ∧
      (x.neg = false → y.neg = false → z.neg = true → old = true) ∧
      (z.neg = true → z.digs = [] → False)
  | 0, _, _, _, _, _, h, _ => by omega
  | fuel + 1, old, x, y, hx, hy, hlt, hcap => by
    have hw0 : 0 < w := by omega
    have hb := one_lt_two_pow hw0
    have hpos : 0 < min x.digs.length y.digs.length →
        0 < val (2 ^ w) x.digs ∧ 0 < val (2 ^ w) y.digs := by
      intro hn
      constructor
      · apply Nat.pos_of_ne_zero
        intro h
        rw [val_eq_zero_iff (by omega) hx.top] at h
        rw [h] at hn; simp at hn
      · apply Nat.pos_of_ne_zero
        intro h
        rw [val_eq_zero_iff (by omega) hy.top] at h
        rw [h] at hn; simp at hn
    have hrec : MulOK w (min x.digs.length y.digs.length) (mulAbsOpt w o fuel false) := by
      intro a b ha hbn hmin
      obtain ⟨z, h1, h2, h3, h4, -⟩ := mulAbsOpt_spec hw o fuel false a b ha hbn (by omega) fun hc => by
        rcases hcap hc with h | h | h
        · exact Or.inl h
        · exact Or.inr (Or.inl h)
        · exact Or.inr (Or.inr (by omega))
      refine ⟨z, h1, h2, h3, fun ha hb => ?_⟩
      cases hz : z.neg with
      | false => rfl
      | true => exact absurd (h4 ha hb hz) (by simp)
    unfold mulAbsOpt
    split
    next h =>
      obtain ⟨z, h1, h2⟩ := mulToom3_spec (by omega) hx hy (by omega) hrec
      obtain ⟨px, py⟩ := hpos (by omega)
      have hv : val (2 ^ w) z.digs = val (2 ^ w) x.digs * val (2 ^ w) y.digs := by
        rw [h2.val_eq, Int.natAbs_mul, natAbs_toInt, natAbs_toInt]
      refine ⟨z, h1, hv, h2.1, ?_, ?_⟩
      · intro hxn hyn hzn
        have := h2.nonneg (by
          rw [toInt_false hxn, toInt_false hyn]
          exact_mod_cast Nat.mul_pos px py)
        rw [this] at hzn; simp at hzn
      · intro _ h0
        rw [h0] at hv
        have := Nat.mul_pos px py
        simp only [val_nil] at hv
        omega
    next h =>
      split
      next h' =>
        obtain ⟨z, h1, h2, h3, h4⟩ := mulKaratsuba_spec hw0 hx hy (by omega) hrec
        refine ⟨z, h1, h2, h3, ?_, ?_⟩
        · intro _ _ hzn; rw [h4] at hzn; simp at hzn
        · intro hzn; rw [h4] at hzn; simp at hzn
      next h' =>
        split
        next hc =>
          have hN : min x.digs.length y.digs.length < 2 ^ w := by
            rcases hcap hc with hk | ⟨ht, h16⟩ | hl
            · have : 2 ^ 8 ≤ 2 ^ w := Nat.pow_le_pow_right (by omega) hw
              have : ¬ min x.digs.length y.digs.length > 64 := fun hl => h' ⟨hk, hl⟩
              omega
            · have : 2 ^ 16 ≤ 2 ^ w := Nat.pow_le_pow_right (by omega) h16
              have : ¬ min x.digs.length y.digs.length > 300 := fun hl => h ⟨ht, hl⟩
              omega
            · exact hl
          obtain ⟨h1, h2, h3⟩ := mulComba_spec hw0 old hx.digits hy.digits hN
          refine ⟨_, rfl, h1, h2, fun _ _ => h3, ?_⟩
          intro hzn h0
          rw [h0, val_nil] at h1
          unfold mulComba at hzn
          split at hzn
          next hz => simp at hzn
          next hz =>
            have hlen : 0 < min x.digs.length y.digs.length := by
              have : x.digs ≠ [] := fun e => hz (Or.inl e)
              have : y.digs ≠ [] := fun e => hz (Or.inr e)
              have := List.length_pos_iff.2 ‹x.digs ≠ []›
              have := List.length_pos_iff.2 ‹y.digs ≠ []›
              omega
            obtain ⟨px, py⟩ := hpos hlen
            have := Nat.mul_pos px py
            omega
        next hc =>
          obtain ⟨h1, h2, h3⟩ := mulBaseline_spec hx hy
          exact ⟨_, rfl, h1, h2, fun _ _ hn => (by rw [h3] at hn; cases hn), fun hn => (by rw [h3] at hn; cases hn)⟩

theorem mulOpt_spec {w : Nat} (hw : 8 ≤ w) (o : MulOpts) (old : Bool) {x y : Mpi} (hx : Norm (2 ^ w) x)
    (hy : Norm (2 ^ w) y)
    (hcap : o.comba = true → o.kara = true ∨ (o.toom = true ∧ 16 ≤ w) ∨ min x.digs.length y.digs.length < 2 ^ w) :
    mulOpt w o old x y = mul w old x y := by
  obtain ⟨z, h1, h2, h3, -, h5⟩ := mulAbsOpt_spec hw o _ old x y hx hy (Nat.lt_succ_self _) hcap
  obtain ⟨z', g1, g2, g3, -, g5⟩ := mulAbs_spec hw _ old x y hx hy (Nat.lt_succ_self _)
  unfold mulOpt mul mulWith
  rw [h1, g1]
  have e : z.digs = z'.digs :=
    val_inj (Nat.two_pow_pos w) h3.digits g3.digits h3.top g3.top (by rw [h2, g2])
  obtain ⟨s, d⟩ := z
  obtain ⟨s', d'⟩ := z'
  simp only at e
  subst e
  by_cases hd : d = []
  · have a1 : s = false := by cases s with | false => rfl | true => exact (h5 rfl hd).elim
    have a2 : s' = false := by cases s' with | false => rfl | true => exact (g5 rfl hd).elim
    rw [a1, a2]
  · simp [hd]

theorem sqrFuelOpt_spec {w : Nat} (hw : 8 ≤ w) (o : MulOpts) : ∀ (fuel : Nat) (old : Bool) (x : Mpi),
    Norm (2 ^ w) x → x.digs.length < fuel → (o.comba = true → o.kara = true ∨ x.digs.length < 2 ^ w) →
    ∃ z, sqrFuelOpt w o fuel old x = some z ∧
      val (2 ^ w) z.digs = val (2 ^ w) x.digs * val (2 ^ w) x.digs ∧ Norm (2 ^ w) z ∧
      z.neg = (if x.digs = [] ∨ (o.kara = true ∧ x.digs.length > 64) ∨ o.comba = false then false else old)
  | 0, _, _, _, h, _ => by omega
  | fuel + 1, old, x, hx, hlt, hcap => by
    have hw0 : 0 < w := by omega
    have h64 : 64 < 2 ^ w := by
      calc 64 < 2 ^ 8 := by norm_num
        _ ≤ 2 ^ w := Nat.pow_le_pow_right (by omega) hw
    unfold sqrFuelOpt
    split
    next h =>
      obtain ⟨z, h1, h2, h3, h4⟩ := sqrKaratsuba_spec hw0 (f := sqrFuelOpt w o fuel false) hx (by omega)
        (by
          intro y hy hl
          obtain ⟨z, g1, g2, g3, g4⟩ := sqrFuelOpt_spec hw o fuel false y hy (by omega) fun hc =>
            (hcap hc).imp id fun h => by omega
          exact ⟨z, g1, g2, g3, by rw [g4]; simp⟩)
      exact ⟨z, h1, h2, h3, by rw [h4, if_pos (Or.inr (Or.inl h))]⟩
    next h =>
      split
      next hc =>
        have hN : x.digs.length < 2 ^ w := by
          rcases hcap hc with hk | hl
          · have : ¬ x.digs.length > 64 := fun hl => h ⟨hk, hl⟩
            omega
          · exact hl
        obtain ⟨h1, h2, h3⟩ := sqrComba_spec hw0 old hx hN
        refine ⟨_, rfl, h1, h2, ?_⟩
        rw [h3]
        by_cases hz : x.digs = []
        · rw [if_pos hz, if_pos (Or.inl hz)]
        · rw [if_neg hz, if_neg]
          rintro (h' | h' | h')
          · exact hz h'
          · exact h h'
          · rw [hc] at h'; cases h'
      next hc =>
        obtain ⟨z, h1, h2, h3, h4⟩ := sqrBaseline_spec (by omega) hx
        exact ⟨z, h1, h2, h3, by rw [h4, if_pos (Or.inr (Or.inr (by simpa using hc)))]⟩

/-- With a destination that is not negative the squares are the same objects. -/
theorem sqrOpt_spec {w : Nat} (hw : 8 ≤ w) (o : MulOpts) {x : Mpi} (hx : Norm (2 ^ w) x)
    (hcap : o.comba = true → o.kara = true ∨ x.digs.length < 2 ^ w) : sqrOpt w o false x = sqr w false x := by
  obtain ⟨z, h1, h2, h3, h4⟩ := sqrFuelOpt_spec hw o _ false x hx (Nat.lt_succ_self _) hcap
  obtain ⟨z', g1, g2, g3, g4⟩ := sqr_spec hw false hx
  unfold sqrOpt
  rw [h1, g1]
  have e : z.digs = z'.digs :=
    val_inj (Nat.two_pow_pos w) h3.digits g3.digits h3.top g3.top (by rw [h2, g2])
  have hn : z.neg = z'.neg := by rw [h4, g4]; simp
  obtain ⟨s, d⟩ := z
  obtain ⟨s', d'⟩ := z'
  simp only at e hn
  rw [e, hn]

/-! ## Comba with too many digits -/

/-- The accumulator as a number. -/
def accDigs (b T : Nat) : Nat × Nat × Nat := (T % b, T / b % b, T / (b * b))

theorem muladd_num {w T d : Nat} (hT : T < 2 ^ w * (2 ^ w * 2 ^ w)) (hd : d < 2 ^ w) :
    muladd w (accDigs (2 ^ w) T) d d = accDigs (2 ^ w) ((T + d * d) % (2 ^ w * (2 ^ w * 2 ^ w))) := by
  have hb : 0 < 2 ^ w := Nat.two_pow_pos w
  unfold muladd accDigs
  rw [show 2 ^ (2 * w) = 2 ^ w * 2 ^ w by rw [two_mul, pow_add]]
  generalize 2 ^ w = b at *
  have h0 := Nat.mod_lt T hb
  have h1 := Nat.mod_lt (T / b) hb
  have hdd : d * d ≤ (b - 1) * (b - 1) := Nat.mul_le_mul (by omega) (by omega)
  have hbb : (b - 1) * (b - 1) + 2 * b = b * b + 1 := by
    obtain ⟨c, rfl⟩ : ∃ c, b = c + 1 := ⟨b - 1, by omega⟩
    simp only [Nat.add_sub_cancel]; ring
  have eT : T = T % b + b * (T / b % b) + b * b * (T / (b * b)) := by
    have e1 := Nat.div_add_mod T b
    have e2 := Nat.div_add_mod (T / b) b
    rw [Nat.div_div_eq_div_mul] at e2
    calc T = b * (T / b) + T % b := e1.symm
      _ = b * (b * (T / (b * b)) + T / b % b) + T % b := by rw [e2]
      _ = _ := by ring
  generalize T % b = c0 at *
  generalize T / b % b = c1 at *
  generalize hc2 : T / (b * b) = c2 at *
  have h2 : c2 < b := by
    rw [← hc2]; exact Nat.div_lt_of_lt_mul (by rw [Nat.mul_comm, Nat.mul_comm b b] at *; linarith)
  subst eT
  have t1 : (c0 + d * d) % (b * b) = c0 + d * d := Nat.mod_eq_of_lt (by omega)
  dsimp only
  rw [t1]
  have hq : (c0 + d * d) / b < b := Nat.div_lt_of_lt_mul (by omega)
  have eq0 := Nat.div_add_mod (c0 + d * d) b
  generalize hq' : (c0 + d * d) / b = q at *
  generalize hr' : (c0 + d * d) % b = r at *
  have hr : r < b := by rw [← hr']; exact Nat.mod_lt _ hb
  have h2b : 2 * b ≤ b * b ∨ b = 1 := by
    rcases Nat.lt_or_ge b 2 with h | h
    · right; omega
    · left; exact Nat.mul_le_mul_right b h
  have t2 : (c1 + q) % (b * b) = c1 + q := by
    apply Nat.mod_eq_of_lt
    rcases h2b with h | h
    · omega
    · subst h; omega
  rw [t2]
  have eq1 := Nat.div_add_mod (c1 + q) b
  have hr2 := Nat.mod_lt (c1 + q) hb
  generalize (c1 + q) / b = e at *
  generalize (c1 + q) % b = f at *
  have eq2 := Nat.div_add_mod (c2 + e) b
  have hr3 := Nat.mod_lt (c2 + e) hb
  generalize (c2 + e) / b = u at *
  generalize (c2 + e) % b = v at *
  have tot : c0 + b * c1 + b * b * c2 + d * d = r + b * f + b * b * v + b * (b * b) * u := by
    calc c0 + b * c1 + b * b * c2 + d * d = (c0 + d * d) + b * c1 + b * b * c2 := by ring
      _ = b * q + r + b * c1 + b * b * c2 := by rw [eq0]
      _ = r + b * (c1 + q) + b * b * c2 := by ring
      _ = r + b * (b * e + f) + b * b * c2 := by rw [eq1]
      _ = r + b * f + b * b * (c2 + e) := by ring
      _ = r + b * f + b * b * (b * u + v) := by rw [eq2]
      _ = _ := by ring
  have small : r + b * f + b * b * v < b * (b * b) := by
    have a1 : b * f ≤ b * (b - 1) := Nat.mul_le_mul_left b (by omega)
    have a2 : b * b * v ≤ b * b * (b - 1) := Nat.mul_le_mul_left _ (by omega)
    have a3 : b * (b - 1) + b = b * b := by
      obtain ⟨c, rfl⟩ : ∃ c, b = c + 1 := ⟨b - 1, by omega⟩
      simp only [Nat.add_sub_cancel]; ring
    have a4 : b * b * (b - 1) + b * b = b * (b * b) := by
      obtain ⟨c, rfl⟩ : ∃ c, b = c + 1 := ⟨b - 1, by omega⟩
      simp only [Nat.add_sub_cancel]; ring
    omega
  rw [tot, Nat.add_mul_mod_self_left, Nat.mod_eq_of_lt small]
  have e1 : (r + b * f + b * b * v) / b = f + b * v := by
    rw [show r + b * f + b * b * v = r + b * (f + b * v) by ring, Nat.add_mul_div_left _ _ hb, Nat.div_eq_of_lt hr,
      Nat.zero_add]
  refine Prod.ext ?_ (Prod.ext ?_ ?_)
  · show r = (r + b * f + b * b * v) % b
    rw [show r + b * f + b * b * v = r + b * (f + b * v) by ring, Nat.add_mul_mod_self_left, Nat.mod_eq_of_lt hr]
  · show f = (r + b * f + b * b * v) / b % b
    rw [e1, Nat.add_mul_mod_self_left, Nat.mod_eq_of_lt hr2]
  · show v = (r + b * f + b * b * v) / (b * b)
    rw [← Nat.div_div_eq_div_mul, e1, Nat.add_mul_div_left _ _ hb, Nat.div_eq_of_lt hr2, Nat.zero_add]

theorem combaCol_const {w d N : Nat} (hd : d < 2 ^ w) {tx ty T : Nat} (hT : T < 2 ^ w * (2 ^ w * 2 ^ w)) :
    ∀ n, tx + n ≤ N → ty < N →
    combaCol w (List.replicate N d) (List.replicate N d) tx ty n (accDigs (2 ^ w) T) =
      accDigs (2 ^ w) ((T + n * (d * d)) % (2 ^ w * (2 ^ w * 2 ^ w)))
  | 0, _, _ => by
    rw [Nat.zero_mul, Nat.add_zero, Nat.mod_eq_of_lt hT]; rfl
  | n + 1, h, ht => by
    have ih := combaCol_const (w := w) (tx := tx) hd hT n (by omega : tx + n ≤ N) ht
    have hpos : 0 < 2 ^ w * (2 ^ w * 2 ^ w) := by positivity
    unfold combaCol at ih ⊢
    rw [List.range_succ, List.foldl_append, ih]
    have e1 : dig (List.replicate N d) (tx + n) = d := by
      simp [dig, List.getD, List.getElem?_replicate, show tx + n < N by omega]
    have e2 : dig (List.replicate N d) (ty - n) = d := by
      simp [dig, List.getD, List.getElem?_replicate, show ty - n < N by omega]
    simp only [List.foldl_cons, List.foldl_nil, e1, e2]
    rw [muladd_num (Nat.mod_lt _ hpos) hd, Nat.mod_add_mod]
    congr 2; ring

/-- The columns `ix, ix + 1, …` of the square of `N` digits `d`, `k` of them, carry `v`. -/
def constCols (b d N : Nat) : Nat → Nat → Nat → List Nat
  | _, 0, _ => []
  | ix, k + 1, v =>
    (v + min (N - (ix - min ix (N - 1))) (min ix (N - 1) + 1) * (d * d)) % (b * (b * b)) % b ::
      constCols b d N (ix + 1) k ((v + min (N - (ix - min ix (N - 1))) (min ix (N - 1) + 1) * (d * d)) % (b * (b * b)) / b)

theorem combaStep_const {w d N : Nat} (hd : d < 2 ^ w) (hN : 0 < N) : ∀ (k ix v : Nat) (acc : List Nat), ix + k ≤ N + N →
    v < 2 ^ w * 2 ^ w →
    ((List.range' ix k).foldl (combaStep w (List.replicate N d) (List.replicate N d)) ((v % 2 ^ w, v / 2 ^ w), acc)).2 =
      acc ++ constCols (2 ^ w) d N ix k v
  | 0, ix, v, acc, _, _ => by simp [constCols]
  | k + 1, ix, v, acc, h, hv => by
    have hb : 0 < 2 ^ w := Nat.two_pow_pos w
    have hpos : 0 < 2 ^ w * (2 ^ w * 2 ^ w) := by positivity
    have hvb : v / 2 ^ w < 2 ^ w := Nat.div_lt_of_lt_mul hv
    have ev : (v % 2 ^ w, v / 2 ^ w, 0) = accDigs (2 ^ w) v := by
      unfold accDigs
      rw [Nat.mod_eq_of_lt hvb, Nat.div_eq_of_lt hv]
    rw [List.range'_succ, List.foldl_cons]
    have e : combaStep w (List.replicate N d) (List.replicate N d) ((v % 2 ^ w, v / 2 ^ w), acc) ix =
        (let T := (v + min (N - (ix - min ix (N - 1))) (min ix (N - 1) + 1) * (d * d)) % (2 ^ w * (2 ^ w * 2 ^ w))
         ((T / 2 ^ w % 2 ^ w, T / 2 ^ w / 2 ^ w), acc ++ [T % 2 ^ w])) := by
      unfold combaStep
      simp only [List.length_replicate]
      rw [ev, combaCol_const hd (lt_of_lt_of_le hv (Nat.le_mul_of_pos_left _ hb)) _ (by omega) (by omega)]
      simp only [accDigs, Nat.div_div_eq_div_mul]
    rw [e]
    dsimp only
    rw [combaStep_const hd hN k (ix + 1) _ _ (by omega) (Nat.div_lt_of_lt_mul (Nat.mod_lt _ hpos))]
    simp [constCols]

theorem combaDigs_const {w d N : Nat} (hd : d < 2 ^ w) (hN : 0 < N) :
    combaDigs w (List.replicate N d) (List.replicate N d) = constCols (2 ^ w) d N 0 (N + N) 0 := by
  unfold combaDigs
  have := combaStep_const (w := w) hd hN (N + N) 0 0 [] (by omega) (by positivity)
  rw [Nat.zero_mod, Nat.zero_div] at this
  rw [List.range_eq_range', List.length_replicate, this]
  rfl

/-- The number with `N` digits 255. -/
theorem ones_val (N : Nat) : val (2 ^ 8) (List.replicate N 255) = 256 ^ N - 1 := by
  have h : ∀ n, val (2 ^ 8) (List.replicate n 255) + 1 = 256 ^ n := by
    intro n
    induction n with
    | zero => rfl
    | succ n ih =>
      rw [List.replicate_succ, val_cons, pow_succ 256 n, ← ih]
      norm_num
      ring
  have := h N
  omega

theorem ones_wf {N : Nat} : WF (2 ^ 8) ⟨false, List.replicate N 255⟩ := by
  refine ⟨⟨?_, ?_⟩, fun _ => rfl⟩
  · intro d hd
    rw [List.eq_of_mem_replicate hd]; norm_num
  · unfold TopNZ
    intro h
    cases N with
    | zero => simp at h
    | succ n => simp [List.getLast?_replicate] at h

/-- The square of it with Comba alone. -/
theorem ones_mulOpt {N : Nat} (hN : 0 < N) :
    mulOpt 8 ⟨false, false, true⟩ false ⟨false, List.replicate N 255⟩ ⟨false, List.replicate N 255⟩ =
      some ⟨false, adjust (constCols (2 ^ 8) 255 N 0 (N + N) 0)⟩ := by
  have h0 : List.replicate N 255 ≠ ([] : List Nat) := by
    intro h
    have := congrArg List.length h
    simp at this; omega
  unfold mulOpt mulWith
  rw [mulAbsOpt, if_neg (by simp), if_neg (by simp), if_pos rfl, mulComba, if_neg (by simp [h0]),
    combaDigs_const (by norm_num) hN]
  simp

end Verif.Mpi
