import Verif.Lemmas.Mem.Str
import Verif.Lemmas.Mem.InvHang
/-! `cry_mpi_print`: when the buffer it allocates is large enough. -/
namespace Verif.Mem
open Verif.Mpi (Mpi Norm WF val DigitWidth rawToAsc)
open Verif (Byte byteLen Fits IsNumeral IsDigit numeral numeralFrom digitValue)

variable {w : Nat}

/-! ### Length of a numeral -/

theorem numeralFrom_eq (radix : Nat) : ∀ (cs : List Byte) (v : Nat), numeralFrom radix v cs = v * radix ^ cs.length + numeral radix cs
  | [], v => by simp [numeralFrom, numeral]
  | c :: cs, v => by
    unfold numeral
    rw [numeralFrom, numeralFrom, numeralFrom_eq radix cs, numeralFrom_eq radix cs (0 * radix + _), List.length_cons, pow_succ]
    ring

theorem numeral_lt {radix : Nat} : ∀ (cs : List Byte), (∀ c ∈ cs, IsDigit radix c) → numeral radix cs < radix ^ cs.length
  | [], _ => by simp [numeral, numeralFrom]
  | c :: cs, h => by
    obtain ⟨d, d1, d2⟩ := h c (by simp)
    unfold numeral
    rw [numeralFrom, numeralFrom_eq, d1, List.length_cons, pow_succ, Nat.zero_mul, Nat.zero_add, Option.getD_some]
    have := numeral_lt cs fun c hc => h c (by simp [hc])
    have h2 := Nat.mul_le_mul_right (radix ^ cs.length) (show d + 1 ≤ radix by omega)
    rw [Nat.add_mul, Nat.one_mul, Nat.mul_comm radix] at h2
    omega

theorem digitValue_zero (c : Byte) (h : digitValue c = some 0) : c = 48#8 := by
  unfold digitValue at h
  apply BitVec.eq_of_toNat_eq
  show c.toNat = 48
  split_ifs at h with h1 h2 h3
  · have := Option.some.inj h; omega
  · have := Option.some.inj h; omega
  · have := Option.some.inj h; omega

theorem numeral_ge {radix : Nat} {ds : List Byte} (hd : ∀ c ∈ ds, IsDigit radix c) (hne : ds ≠ []) (h0 : ds.head? ≠ some 48#8) :
    radix ^ (ds.length - 1) ≤ numeral radix ds := by
  cases ds with
  | nil => exact absurd rfl hne
  | cons c cs =>
    obtain ⟨d, d1, d2⟩ := hd c (by simp)
    have : d ≠ 0 := fun e => h0 (by rw [e] at d1; rw [List.head?_cons, digitValue_zero c d1])
    unfold numeral
    rw [numeralFrom, numeralFrom_eq, d1, List.length_cons, Nat.zero_mul, Nat.zero_add, Option.getD_some, Nat.add_sub_cancel]
    have := Nat.mul_le_mul_right (radix ^ cs.length) (show 1 ≤ d by omega)
    omega

/-- Length of the string of a number that is not zero. -/
theorem _root_.Verif.IsNumeral.length_le {radix : Nat} {z : Int} {t : List Byte} (h : IsNumeral radix z t) (hr : 2 ≤ radix) (hz : z ≠ 0) (k : Nat) :
    t.length ≤ k + (if z < 0 then 1 else 0) ↔ z.natAbs < radix ^ k := by
  obtain ⟨ds, rfl, h1, h2, h3, -, h4⟩ := h
  have e : (if z < 0 then 45#8 :: ds else ds).length = ds.length + if z < 0 then 1 else 0 := by split_ifs <;> simp
  rw [e]
  have hlo := numeral_ge h1 h3 (h4 hz)
  have hhi := numeral_lt ds h1
  rw [h2] at hlo hhi
  have hpos := List.length_pos_of_ne_nil h3
  constructor
  · intro h
    exact Nat.lt_of_lt_of_le hhi (Nat.pow_le_pow_right (by omega) (by omega))
  · intro h
    have := (Nat.pow_lt_pow_iff_right (show 1 < radix by omega)).1 (Nat.lt_of_le_of_lt hlo h)
    omega

/-! ### Reading a string -/

theorem cstr_ok (s : St) : ∀ (t : List Byte) (b : Buf) (n i : Nat), (∀ c ∈ t, c ≠ 0) → t.length + 1 ≤ n →
    (∀ k, k < t.length + 1 → b[i + k]? = ((t ++ [0])[k]?).map some) → cstr b n i s = .ok (t, s)
  | [], b, n, i, _, hn, hb => by
    obtain ⟨n, rfl⟩ : ∃ n', n = n' + 1 := ⟨n - 1, by simp at hn; omega⟩
    have h0 := hb 0 (by simp)
    rw [Nat.add_zero] at h0
    rw [cstr, bind_ok (get_ok (v := 0) h0 s), if_pos rfl]; rfl
  | c :: t, b, n, i, h, hn, hb => by
    obtain ⟨n, rfl⟩ : ∃ n', n = n' + 1 := ⟨n - 1, by simp at hn; omega⟩
    rw [List.length_cons] at hn hb
    have h0 := hb 0 (by omega)
    rw [Nat.add_zero] at h0
    rw [cstr, bind_ok (get_ok (v := c) h0 s), if_neg (h c (by simp)),
      bind_ok (cstr_ok s t b n (i + 1) (fun c hc => h c (by simp [hc])) (by omega) fun k hk => by
        have := hb (k + 1) (by omega)
        rw [show i + 1 + k = i + (k + 1) by omega, this]; rfl)]
    rfl

theorem _root_.Verif.IsNumeral.nonzero {radix : Nat} {z : Int} {t : List Byte} (h : IsNumeral radix z t) : ∀ c ∈ t, c ≠ 0 := by
  obtain ⟨ds, rfl, h1, -⟩ := h
  have hd : ∀ c ∈ ds, c ≠ 0 := by
    rintro c hc rfl
    obtain ⟨d, hd, -⟩ := h1 _ hc
    simp [digitValue] at hd
  split_ifs
  · intro c hc
    rcases List.mem_cons.1 hc with rfl | hc
    · decide
    · exact hd c hc
  · exact hd

/-! ### Printing -/

theorem countBytes_eval (hw : DigitWidth w) {a : Nat} {s : St} {z : Int} (ha : (s.obj a).Shows w z) : countBytes w a s = .ok (byteLen z, s) := by
  obtain ⟨m, m1, m2, m3⟩ := ha
  rw [countBytes_run m3]
  unfold Mpi.countBytes byteLen
  rw [Mpi.countBits_spec hw m1.toNorm, ← m2, Mpi.natAbs_toInt]

theorem fits_hex (z : Int) : Fits 16 z := by
  unfold Fits
  have h : z.natAbs < 2 ^ (8 * byteLen z) := by
    rw [← Nat.size_le]
    unfold byteLen
    omega
  refine Nat.lt_of_lt_of_le h ?_
  rw [show (16 : Nat) = 2 ^ 4 from rfl, ← pow_mul]
  refine Nat.pow_le_pow_right (by omega) ?_
  split_ifs <;> omega

theorem _root_.Verif.IsNumeral.fits {radix : Nat} {z : Int} {t : List Byte} (h : IsNumeral radix z t) (hr : 2 ≤ radix) (hr' : radix ≤ 16) :
    t.length + 1 ≤ 2 * byteLen z + 2 ↔ Fits radix z := by
  by_cases hz : z = 0
  · subst hz
    have h1 : Fits radix 0 := by unfold Fits; simp only [Int.natAbs_zero]; positivity
    refine ⟨fun _ => h1, fun _ => ?_⟩
    obtain ⟨ds, hd, -, -, -, h3, -⟩ := h
    rw [hd, if_neg (by omega), h3 rfl]
    simp
  · unfold Fits
    rw [← h.length_le hr hz]
    have hb : 1 ≤ byteLen z := by
      unfold byteLen
      have := Nat.size_pos.2 (show 0 < z.natAbs by omega)
      omega
    split_ifs <;> omega

theorem print_res (hw : DigitWidth w) {sp a radix : Nat} {s : St} {z : Int} (ha : (s.obj a).Shows w z) (has : a < sp) (hr : 2 ≤ radix) (hr' : radix ≤ 16)
    (hfit : Fits radix z) :
    ∃ t, IsNumeral radix z t ∧ WP (print w sp a radix) (fun out s' => (∀ v, v < sp → s'.obj v = s.obj v) ∧ s'.live = s.live ∧
      (out = .line t ∨ (out = .error ∧ Failed s s'))) s := by
  by_cases hf : s.fails s.tick = true
  · obtain ⟨t, ht, -⟩ := storeStr_res hw ha has hr hr'
    refine ⟨t, ht, ?_⟩
    unfold print
    refine WP.bind_run (countBytes_eval hw ha) ?_
    dsimp only
    refine WP.bind_run (a := false) (s' := { s with tick := s.tick + 1 }) (by unfold request; rw [if_pos hf]) (WP.pure ⟨fun v _ => rfl, rfl, Or.inr ⟨rfl, s.tick, Nat.le_refl _, Nat.lt_succ_self _, hf⟩⟩)
  · unfold print
    generalize hs1 : ({ s with tick := s.tick + 1, live := s.live + 1 } : St) = s1
    have o1 : s1.obj = s.obj := by rw [← hs1]
    have l1 : s1.live = s.live + 1 := by rw [← hs1]
    have f1 : s1.fails = s.fails := by rw [← hs1]
    have k1 : s.tick ≤ s1.tick := by rw [← hs1]; exact Nat.le_succ _
    obtain ⟨t', ht', h⟩ := storeStr_res (sp := sp) (a := a) (s := s1) (z := z) (radix := radix) hw (by rw [o1]; exact ha) has hr hr'
    refine ⟨t', ht', WP.bind_run (countBytes_eval hw ha) ?_⟩
    dsimp only
    refine WP.bind_run (a := true) (s' := s1) (by unfold request; rw [if_neg hf, hs1]) ?_
    have hlen := (ht'.fits hr hr').2 hfit
    obtain ⟨r, s2, e2, h2, h3⟩ := h (List.replicate (2 * byteLen z + 2) none) (by simpa using hlen)
    obtain ⟨st, b⟩ := r
    dsimp only at h2 h3
    rw [if_pos rfl]
    refine WP.bind_run e2 ?_
    dsimp only
    have live : ∀ (E : Env), (∀ v, v < sp → E v = fun o => o = s1.obj v) → At (ctxOf sp s1) E sp s2 → (∀ v, v < sp → s2.obj v = s.obj v) ∧ s2.live - 1 = s.live := by
      intro E hE h
      have ho : ∀ v, v < sp → s2.obj v = s1.obj v := fun v hv => by have := h.objs v hv; rwa [hE v hv] at this
      refine ⟨fun v hv => by rw [ho v hv, o1], ?_⟩
      have h1 := h.bal
      have : (ctxOf sp s1).B = s1.live - ∑ v ∈ Finset.range sp, (s1.obj v).owns := rfl
      have e : ∑ v ∈ Finset.range sp, (s2.obj v).owns = ∑ v ∈ Finset.range sp, (s1.obj v).owns :=
        Finset.sum_congr rfl fun v hv => by rw [ho v (Finset.mem_range.1 hv)]
      rw [this, e] at h1
      omega
    rcases h2 with ⟨rfl, h2⟩ | ⟨rfl, ⟨k, b1, b2, b3⟩, h2⟩
    · rw [if_pos rfl]
      have hb := h3.1 rfl
      dsimp only at hb
      have hc : cstr b (2 * byteLen z + 2) 0 s2 = .ok (t', s2) := cstr_ok s2 t' b _ 0 ht'.nonzero hlen fun k hk => by
        rw [hb, overB_get (by simp; omega)]
        simp only [List.length_append, List.length_singleton, Nat.zero_add, Nat.not_lt_zero, if_false, Nat.sub_zero]
        rw [if_pos hk]
      refine WP.bind_run hc (WP.bind_run rfl (WP.bind_run rfl (WP.pure ?_)))
      obtain ⟨g1, g2⟩ := live _ (fun v hv => rfl) h2
      exact ⟨g1, g2, Or.inl rfl⟩
    · rw [if_neg (by simp)]
      refine WP.bind_run rfl (WP.bind_run rfl (WP.pure ?_))
      obtain ⟨g1, g2⟩ := live _ (fun v hv => rfl) h2
      refine ⟨g1, g2, Or.inr ⟨rfl, k, k1.trans b1, b2, ?_⟩⟩
      rw [← f1]; exact b3

/-! ### Overrun -/

theorem ub_bind {α β : Type} {c : M α} {k : α → M β} {s : St} (h : c s = .ub) : (c >>= k) s = .ub := by
  show (match c s with
    | .ok (a, s') => k a s'
    | .ub => .ub
    | .hang => .hang) = _
  rw [h]

theorem put_ub {b : Buf} {i : Nat} (v : Byte) (h : b.length ≤ i) (s : St) : put b i v s = .ub := by
  unfold put; rw [if_neg (by omega)]; rfl

theorem strEnd_over {a : Nat} {s : St} {m : Mpi} (h : (s.obj a).Reads m) {b : Buf} {cs : List Byte} (hc : cs.length ≤ b.length)
    (hb : b.length < (cs ++ if m.neg then [45#8] else []).length + 1) : strEnd a cs.length (overB b 0 cs) s = .ub := by
  obtain ⟨al, h1, h2⟩ := h
  have hL : (overB b 0 cs).length = b.length := overB_length (by omega)
  unfold strEnd
  rw [bind_ok (hdr_ok h1)]
  dsimp only
  cases hn : m.neg with
  | false =>
    rw [hn] at hb
    simp only [Bool.false_eq_true, if_false, List.append_nil] at hb ⊢
    refine (bind_ok (a := (cs.length, overB b 0 cs)) (s' := s) rfl).trans ?_
    exact ub_bind (put_ub (b := overB b 0 cs) 0 (by omega) s)
  | true =>
    rw [hn] at hb
    simp only [if_true, List.length_append, List.length_singleton] at hb ⊢
    by_cases hx : cs.length < b.length
    · refine (bind_ok (put_ok 45 (by omega) s)).trans ?_
      refine (bind_ok (a := (cs.length + 1, (overB b 0 cs).set cs.length (some 45))) (s' := s) rfl).trans ?_
      exact ub_bind (put_ub (b := (overB b 0 cs).set cs.length (some 45)) 0 (by rw [List.length_set]; omega) s)
    · exact ub_bind (put_ub 45 (by omega) s)

theorem strLoop_over (hw : DigitWidth w) {K : Ctx} (hK : K.Calm) {s0 : St} {sp a radix : Nat} {m : Mpi} (ha : (s0.obj a).Reads m) (has : a < sp) (hr : 2 ≤ radix)
    (hr' : radix ≤ 16) {b : Buf} {full : List Byte} (hb : b.length < (full ++ if m.neg then [45#8] else []).length + 1) :
    ∀ (fuel : Nat) (pre : List Byte) (T R : Int) (s : St), At K (Vs w sp (Now s0) [T, (radix : Int), R]) (sp + 3) s →
      full = pre ++ revDigits radix T.natAbs → T.natAbs < 2 ^ fuel → pre.length ≤ b.length →
      strLoop w (sp + 3) a sp (sp + 1) (sp + 2) (fuel + 1) pre.length (overB b 0 pre) s = .ub
  | fuel, pre, T, R, s, h, hf, hlt, hpre => by
    have hw8 := hw.pos
    have v0 : V w T 0 (s.obj sp) := Nums.val h (j := 0) (by omega)
    obtain ⟨m0, t1, t2, t3⟩ := id v0
    have oa : s.obj a = s0.obj a := Nums.arg h has
    rw [strLoop, bind_ok (hdr_ok t3.1.1)]
    by_cases hz : m0.digs.length = 0
    · rw [if_pos hz]
      have hT : T = 0 := by
        rw [← t2, (Mpi.toInt_eq_zero_iff (Nat.two_pow_pos w) t1.toNorm).2 (List.eq_nil_of_length_eq_zero hz)]
      have hfull : full = pre := by rw [hf, hT]; simp [revDigits]
      subst hfull
      exact strEnd_over (m := m) (by rw [oa]; exact ha) hpre hb
    · rw [if_neg hz]
      have hT : T ≠ 0 := fun e => hz (by
        rw [e] at t2
        rw [(Mpi.toInt_eq_zero_iff (Nat.two_pow_pos w) t1.toNorm).1 t2]; rfl)
      have hpos : 0 < T.natAbs := by omega
      obtain ⟨R', hR', st, s1, e1, hd⟩ := str_div hw hr h
      obtain ⟨rfl, a1⟩ := hd.calm hK
      rw [bind_ok e1, if_neg (by simp)]
      have hml := Nat.mod_lt T.natAbs (show 0 < radix by omega)
      obtain ⟨h2, g1, g2⟩ := rem_digit hw8 (v := sp + 2) (s := s1) (z := R') (Nums.val a1 (j := 2) (by omega)) (by omega)
      rw [bind_ok g1]
      have hdig : revDigits radix T.natAbs = rawToAsc R'.natAbs :: revDigits radix (T.natAbs / radix) := by
        unfold revDigits
        rw [Nat.digits_def' (by omega) hpos, hR']; rfl
      have hL : (overB b 0 pre).length = b.length := overB_length (by omega)
      have key : (do
          let s ← put (overB b 0 pre) pre.length (rawToAsc R'.natAbs)
          strLoop w (sp + 3) a sp (sp + 1) (sp + 2) fuel (pre.length + 1) s) s1 = .ub := by
        by_cases hroom : pre.length < b.length
        · rw [bind_ok (put_ok _ (by omega) s1), overB_snoc hroom]
          obtain ⟨f, rfl⟩ : ∃ f, fuel = f + 1 := ⟨fuel - 1, by
            cases fuel with
            | zero => rw [pow_zero] at hlt; omega
            | succ f => omega⟩
          have := strLoop_over hw hK ha has hr hr' hb f (pre ++ [rawToAsc R'.natAbs]) _ _ s1 a1 (by
              rw [hf, hdig, Int.natAbs_natCast]; simp) (by
              rw [Int.natAbs_natCast, Nat.div_lt_iff_lt_mul (by omega)]
              rw [pow_succ] at hlt
              exact Nat.lt_of_lt_of_le hlt (Nat.mul_le_mul_left _ hr)) (by simp; omega)
          rw [List.length_append, List.length_singleton] at this
          exact this
        · exact ub_bind (put_ub _ (by omega) s1)
      exact rem_digit_eq hw8 (z := R') (Nums.val a1 (j := 2) (by omega)) (by omega) g1 (fun d => do
          let s ← put (overB b 0 pre) pre.length (rawToAsc d)
          strLoop w (sp + 3) a sp (sp + 1) (sp + 2) fuel (pre.length + 1) s) key

theorem storeStr_over (hw : DigitWidth w) {sp a radix : Nat} {s : St} {z : Int} (hc : ∀ k, s.fails k = false) (ha : (s.obj a).Shows w z) (has : a < sp)
    (hr : 2 ≤ radix) (hr' : radix < 16) (hz : z ≠ 0) {t : List Byte} (ht : IsNumeral radix z t) {b : Buf} (hb : b.length < t.length + 1) :
    storeStr w sp a radix b s = .ub := by
  have hw8 := hw.pos
  have hw0 : 0 < w := by omega
  obtain ⟨m, m1, m2, al, m4, m5⟩ := id ha
  have hneg : (m.neg = true) = (z < 0) := by rw [← m2]; exact propext (Mpi.neg_iff_of_wf m1)
  have hv : val (2 ^ w) m.digs = z.natAbs := by rw [← m2, Mpi.natAbs_toInt]
  have hz0 := Mpi.toInt_eq_zero_iff (Nat.two_pow_pos w) m1.toNorm
  rw [m2] at hz0
  have h0 : ¬ m.digs.length = 0 := fun e => hz (hz0.2 (List.eq_nil_of_length_eq_zero e))
  have hK : (ctxOf sp s).Calm := hc
  -- the string has as many characters as the one that is written
  obtain ⟨d1, d2, d3, d4⟩ := revDigits_spec hr (by omega : radix ≤ 16) z.natAbs
  have ht' : IsNumeral radix z (if z < 0 then 45#8 :: (revDigits radix z.natAbs).reverse else (revDigits radix z.natAbs).reverse) :=
    ⟨_, rfl, fun c hc => d1 c (List.mem_reverse.1 hc), d2, fun e => hz (by have := d3.1 (by simpa using e); omega),
      fun h => absurd h hz, fun _ => by rw [List.head?_reverse]; exact d4⟩
  have hlen : t.length ≤ (revDigits radix z.natAbs ++ if m.neg then [45#8] else []).length := by
    have e : (revDigits radix z.natAbs ++ if m.neg then [45#8] else []).length =
        (revDigits radix z.natAbs).length + if z < 0 then 1 else 0 := by
      simp only [hneg]
      split_ifs <;> simp
    have e' : (if z < 0 then 45#8 :: (revDigits radix z.natAbs).reverse else (revDigits radix z.natAbs).reverse).length =
        (revDigits radix z.natAbs).length + if z < 0 then 1 else 0 := by
      split_ifs <;> simp
    rw [e, ht.length_le hr hz, ← ht'.length_le hr hz, e']
  unfold storeStr
  obtain ⟨u, s1, e1, h⟩ := decl_at (at_now sp s) 3
  rw [bind_ok e1, if_neg (by omega)]
  have oa : s1.obj a = s.obj a := by
    have := h.objs a (by omega); rwa [Locals.lo has] at this
  rw [bind_ok (hdr_ok (h := ⟨m.neg, m.digs.length, al⟩) (by rw [oa]; exact m4)), if_neg h0, if_neg (by omega)]
  have hi := initListLoop_at (w := w) hw0 [sp, sp + 1, sp + 2] [] s1 (E := Locals sp (Now s) (· = Obj.fresh)) (h.le fun v _ o ho => by
      unfold Sets; rw [if_neg (by simp)]; exact ho)
    (by intro v hv; simp at hv; omega) (by simp) (by
      intro v hv o ho
      rw [Locals.hi (by simp at hv; omega)] at ho
      rw [ho]; rfl)
  obtain ⟨st, s2, e2, h2⟩ := hi
  obtain ⟨rfl, h2'⟩ := h2.calm hK
  rw [bind_ok (show initList [sp, sp + 1, sp + 2] s1 = _ from e2), if_neg (by simp)]
  apply ub_bind
  unfold strBody
  have h3 : At (ctxOf sp s) (Nums (fun z => V w z 8) sp (Now s) (List.replicate 3 0)) (sp + 3) s2 := h2'.le fun v hv o ho => by
    unfold Sets at ho
    unfold Nums
    by_cases hvs : v < sp
    · rw [if_neg (by simp; omega), Locals.lo hvs] at ho
      rw [if_pos hvs]; exact ho
    · rw [if_pos (by simp; omega)] at ho
      rw [if_neg hvs, List.getD_eq_getElem?_getD, List.getElem?_replicate]
      split <;> exact ho
  obtain ⟨s3, e3, h4⟩ := calm_leaf hK h3 (r := sp) (by omega) (copy_leaf (d := sp) (x := a) (Nums.val h3 (j := 0) (by omega)) (by
    rw [show s2.obj a = s.obj a from Nums.arg h3 has]; exact ha))
  rw [bind_ok e3, if_neg (by simp)]
  have h4 := h4.le (Nums.set (i := 0) (by simp))
  obtain ⟨s5, e5, t5, v5, -⟩ := setInt_run hw (S := sp + 3) (v := (radix : Int)) (Nums.val h4 (j := 1) (by omega)) (by
    rw [Int.natAbs_natCast]; omega)
  have h5 := (step_at h4 (by omega) t5 v5).le (Nums.set (i := 1) (by simp))
  rw [bind_ok e5]
  have h6 : At (ctxOf sp s) (Vs w sp (Now s) [z, (radix : Int), 0]) (sp + 3) s5 := h5.le fun v hv o ho => by
    unfold Vs Nums at *
    by_cases hvs : v < sp
    · rw [if_pos hvs] at *; exact ho
    · rw [if_neg hvs] at *
      exact ho.weak (by omega)
  have := strLoop_over hw hK (s0 := s) ⟨al, m4, m5⟩ has hr (by omega : radix ≤ 16) (b := b) (full := revDigits radix z.natAbs) (by omega)
    (w * m.digs.length) [] z 0 s5 h6 rfl (by rw [← hv, pow_mul]; exact Mpi.val_lt m1.digits) (by simp)
  rw [overB_nil, List.length_nil] at this
  exact this

theorem print_over (hw : DigitWidth w) {sp a radix : Nat} {s : St} {z : Int} (hc : ∀ k, s.fails k = false) (ha : (s.obj a).Shows w z) (has : a < sp)
    (hr : 2 ≤ radix) (hr' : radix ≤ 16) (hfit : ¬ Fits radix z) : print w sp a radix s = .ub := by
  have h16 : radix ≠ 16 := fun e => hfit (by rw [e]; exact fits_hex z)
  have hz : z ≠ 0 := fun e => hfit (by rw [e]; unfold Fits; simp only [Int.natAbs_zero]; positivity)
  unfold print
  rw [bind_ok (countBytes_eval hw ha)]
  dsimp only
  rw [bind_ok (a := true) (s' := { s with tick := s.tick + 1, live := s.live + 1 }) (by unfold request; rw [if_neg (by rw [hc]; decide)]), if_pos rfl]
  apply ub_bind
  obtain ⟨t, ht, -⟩ := storeStr_res hw ha has hr hr'
  refine storeStr_over (s := { s with tick := s.tick + 1, live := s.live + 1 }) hw (z := z) (fun k => hc k) ha has hr (by omega) hz ht ?_
  have := (ht.fits hr hr').not.2 hfit
  rw [List.length_replicate]; omega

end Verif.Mem
