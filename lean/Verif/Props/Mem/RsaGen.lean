import Verif.Lemmas.Mem.InitLost
import Verif.Lemmas.Mem.RsaGen
import Verif.Props.Mem.Prime
/-!
# C100: RSA key generation in memory
-/
namespace Verif.Mem
open Verif.Mpi

section
variable {w : Nat} {s : St} {sp fuel n e p q bits : Nat} {ev zn ze zp zq : Int}

/-- The context before the call: initialised numbers at four different addresses; the primes and the exponent of before are not negative. -/
structure RsaCtx (w sp : Nat) (s : St) (n e p q : Nat) (zn ze zp zq : Int) : Prop where
  four : Four sp n e p q
  an : (s.obj n).Is w zn
  ae : (s.obj e).Is w ze
  ap : (s.obj p).Is w zp
  aq : (s.obj q).Is w zq
  e0 : 0 ≤ ze
  p0 : 0 ≤ zp
  q0 : 0 ≤ zq

theorem is_v {z : Int} {o : Obj} (h : o.Is w z) : V w z 0 o := by
  obtain ⟨m, m1, m2, m3⟩ := h; exact ⟨m, m1, m2, m3, Nat.zero_le _⟩
theorem v_is {z : Int} {o : Obj} (h : V w z 0 o) : o.Is w z := by
  obtain ⟨m, m1, m2, m3⟩ := h; exact ⟨m, m1, m2, m3.1⟩

/-- C100, partial.  Full statement: when `cry_rsa_keygen` returns 0 the context holds a complete key; otherwise a failure is reported; all
memory of the call is given back and nothing else is written.  Proved, when no allocation fails, for sizes whose half is a positive multiple
of 8, when no number drawn begins with a zero digit: the key is the one of the first turn that finds two different numbers accepted as primes,
with a product of exactly `bits` bits and an exponent coprime to `(x-1)(y-1)`; -1 is returned when one of the primes is not found in a turn.
Missing: the status is also 0 when 10000 turns end without a key, and the private exponent is not written at all: it is among the numbers that
stay as they were. -/
theorem mem_rsa_keygen_partial (hw : DigitWidth w) (hs : Plenty s) (hc : RsaCtx w sp s n e p q zn ze zp zq) (hb : 0 < bits / 2) (h8 : bits / 2 % 8 = 0) (hf : bits ≤ fuel)
    {draw : Nat → RsaDraw} (hd : ∀ j, RsaDrawOk w bits (draw j)) (hev : 0 ≤ ev) (hev' : ev < 2 ^ 63) :
    ∃ st s', rsaKeygen w sp fuel n e p q bits ev draw s = .ok (st, s') ∧ Balanced sp s s' ∧ (∀ v, v < sp → v ≠ n → v ≠ e → v ≠ p → v ≠ q → s'.obj v = s.obj v) ∧
      (∀ v ∈ [n, e, p, q], ∃ z, (s'.obj v).Is w z) ∧
      ((st = 0 ∧ ∃ k x y, k < 10000 ∧ (∀ i < k, KeyRetry bits ev (draw i)) ∧ KeyFound bits ev (draw k) x y ∧
          (s'.obj p).Is w x ∧ (s'.obj q).Is w y ∧ (s'.obj n).Is w (x * y : Nat) ∧ (s'.obj e).Is w (pubExp bits ev (draw k))) ∨
       (st = 0 ∧ ∀ i < 10000, KeyRetry bits ev (draw i)) ∨
       (st = -1 ∧ ∃ k, k < 10000 ∧ (∀ i < k, KeyRetry bits ev (draw i)) ∧ KeyFail bits (draw k))) := by
  have hw0 : 0 < w := by have := hw.pos; omega
  have hA := hc.four
  have hp' := hA.p; have hq' := hA.q; have hn' := hA.n; have he' := hA.e
  have hK : (ctxOf sp s).Calm := hs
  have h0 : At (ctxOf sp s) (KB w (Now s) n e p q zn ze zp zq) sp s := (at_now sp s).le fun v hv o ho => by
    unfold KB
    rw [show o = s.obj v from ho]
    split_ifs with h1 h2 h3 h4
    · subst h1; exact is_v hc.an
    · subst h2; exact is_v hc.ae
    · subst h3; exact is_v hc.ap
    · subst h4; exact is_v hc.aq
    · rfl
  obtain ⟨s1, e1, h1⟩ := decl_run h0 5
  obtain ⟨s2, e2, h2⟩ := const_at (N := 4) h1 1
  have h3 : ∃ s3 E, (if ev ≠ 0 then setInt w e ev else pure 0 : M Int) s2 = .ok (0, s3) ∧ 0 ≤ E ∧ (ev ≠ 0 → E = ev) ∧
      At (ctxOf sp s) (Locals (sp + 1) (Function.update (KB w (Now s) n e p q zn E zp zq) sp (· = ⟨some ⟨false, 1, 1⟩, .mem false [some 1]⟩)) (· = Obj.fresh)) (sp + 1 + 4) s3 := by
    by_cases hz : ev = 0
    · exact ⟨s2, ze, by rw [if_neg (by simpa using hz)]; rfl, hc.e0, fun h => absurd hz h, h2⟩
    · have ve : V w ze 0 (s2.obj e) := by
        have := h2.objs e (by omega)
        rwa [Locals.lo (by omega), Function.update_of_ne (by omega), KB.getE hA] at this
      obtain ⟨s3, e3, h3⟩ := calm_leaf hK h2 (r := e) (by omega) (setInt_leaf hw ve (v := ev) (by omega))
      refine ⟨s3, ev, by rw [if_pos hz]; exact e3, hev, fun _ => rfl, h3.le fun v hv o ho => ?_⟩
      rw [← KB.setE hA (z := ev) (E := ze), Function.update_comm (by omega)]
      by_cases hve : v = e
      · subst hve; rw [Function.update_self] at ho; rw [Locals.lo (by omega), Function.update_self]; exact ho
      · rw [Function.update_of_ne hve] at ho
        by_cases hl : v < sp + 1
        · rw [Locals.lo hl] at ho ⊢; rw [Function.update_of_ne hve]; exact ho
        · rw [Locals.hi (by omega)] at ho ⊢; exact ho
  obtain ⟨s3, E, e3, hE, hE', h3⟩ := h3
  have hlist : ∀ v, v ∈ [sp + 1, sp + 2, sp + 3, sp + 4] ↔ sp + 1 ≤ v ∧ v < sp + 1 + 4 := by
    intro v; simp only [List.mem_cons, List.not_mem_nil, or_false]; omega
  obtain ⟨s4, e4, h4⟩ := initList_calm hw0 hK h3 hlist (by simp)
  have h4 : At (ctxOf sp s) (KS w sp (Now s) n e p q zn E zp zq 0 0 0 0) (sp + 1 + 4) s4 := h4
  obtain ⟨st, s5, N', E', P', Q', a', b', g', f', e5, h5, c5⟩ := rsaKeyLoop_calm hw hK hA hb h8 hf hd hev 10000 0 s4 _ _ _ _ _ _ _ _ hc.p0 hc.q0 hE hE' (by decide) h4
  unfold KS at h5
  obtain ⟨s6, e6, h6⟩ := clearList_calm h5 hlist
  have h7 := const_exit h6
  have vn := h7.objs n hn'
  have ve := h7.objs e he'
  have vp := h7.objs p hp'
  have vq := h7.objs q hq'
  rw [KB.getN] at vn
  rw [KB.getE hA] at ve
  rw [KB.getP hA] at vp
  rw [KB.getQ hA] at vq
  refine ⟨st, s6, ?_, balanced_of h7, fun v hv v1 v2 v3 v4 => ?_, ?_, ?_⟩
  · unfold rsaKeygen
    rw [bind_ok e1, bind_ok e2, chk_ok e3, chk_ok e4, bind_ok e5, bind_ok e6]; rfl
  · have := h7.objs v hv
    unfold KB at this
    rwa [if_neg v1, if_neg v2, if_neg v3, if_neg v4] at this
  · intro v hv
    simp only [List.mem_cons, List.not_mem_nil, or_false] at hv
    rcases hv with rfl | rfl | rfl | rfl
    · exact ⟨_, v_is vn⟩
    · exact ⟨_, v_is ve⟩
    · exact ⟨_, v_is vp⟩
    · exact ⟨_, v_is vq⟩
  · simp only [Nat.zero_add] at c5
    rcases c5 with ⟨r, k, x, y, k1, k2, k3, rfl, rfl, rfl, rfl⟩ | c5 | c5
    · exact Or.inl ⟨r, k, x, y, k1, k2, k3, v_is vp, v_is vq, v_is vn, v_is ve⟩
    · exact Or.inr (Or.inl c5)
    · exact Or.inr (Or.inr c5)

/-- The two highest bits of a candidate are set. -/
theorem cand_ge {V : Nat} (hb : 2 ≤ bits) : 3 * 2 ^ (bits - 2) ≤ Spec.primeCandidate bits V := by
  unfold Spec.primeCandidate
  have h1 : (2 ^ (bits - 1) ||| 2 ^ (bits - 2) : Nat) = 3 * 2 ^ (bits - 2) := by
    have := Nat.two_pow_add_eq_or_of_lt (Nat.pow_lt_pow_right (a := 2) (by omega) (by omega : bits - 2 < bits - 1)) 1
    rw [mul_one] at this
    rw [← this, show bits - 1 = bits - 2 + 1 by omega, pow_succ]
    ring
  rw [Nat.or_assoc, h1]
  exact Nat.right_le_or

/-- C100: the product of the two numbers found always has twice the bits of one of them: a size is never missed by chance. -/
theorem mem_rsa_pair_size {dr : RsaDraw} {x y : Nat} (hb : 0 < bits / 2) (h8 : bits / 2 % 8 = 0) (hd : RsaDrawOk w bits dr) (h : Pair bits dr x y) : (x * y).size = 2 * (bits / 2) := by
  obtain ⟨⟨k, -, -, -, rfl⟩, ⟨l, -, -, -, rfl⟩⟩ := h
  have lt : ∀ {draw : Nat → PrimeDraw} (k : Nat), DrawsOk w (bits / 2) draw → Spec.primeCandidate (bits / 2) (beVal (draw k).bytes) < 2 ^ (bits / 2) := fun {draw} k hd => by
    have hlt : beVal (draw k).bytes < 2 ^ (bits / 2) := by
      have := beVal_lt (draw k).bytes
      rwa [(hd k).1, show 256 = 2 ^ 8 by rfl, ← pow_mul, show 8 * (bits / 2 / 8) = bits / 2 by omega] at this
    have := cand_size (bits := bits / 2) (by omega) hlt
    exact Nat.size_le.1 (le_of_eq this)
  have a1 := lt k hd.p
  have a2 := lt l hd.q
  have b1 := cand_ge (bits := bits / 2) (V := beVal (dr.p k).bytes) (by omega)
  have b2 := cand_ge (bits := bits / 2) (V := beVal (dr.q l).bytes) (by omega)
  set x := Spec.primeCandidate (bits / 2) (beVal (dr.p k).bytes)
  set y := Spec.primeCandidate (bits / 2) (beVal (dr.q l).bytes)
  obtain ⟨h, hh⟩ : ∃ h, bits / 2 = h + 2 := ⟨bits / 2 - 2, by omega⟩
  rw [hh] at a1 a2 b1 b2 ⊢
  rw [show h + 2 - 2 = h by omega] at b1 b2
  apply le_antisymm
  · rw [Nat.size_le, two_mul, pow_add]; exact Nat.mul_lt_mul'' a1 a2
  · have : 2 * (h + 2) - 1 < (x * y).size := by
      rw [Nat.lt_size]
      calc 2 ^ (2 * (h + 2) - 1) = 8 * (2 ^ h * 2 ^ h) := by rw [← pow_add, show 2 * (h + 2) - 1 = 3 + (h + h) by omega, pow_add]; norm_num
        _ ≤ 3 * 2 ^ h * (3 * 2 ^ h) := by nlinarith [Nat.two_pow_pos h]
        _ ≤ x * y := Nat.mul_le_mul b1 b2
    omega

/-- C100, where it fails: an odd size never gives a key, but the call reports success when primes are found in all 10000 turns. -/
theorem mem_rsa_keygen_odd (hw : DigitWidth w) (hs : Plenty s) (hc : RsaCtx w sp s n e p q zn ze zp zq) (hb : 0 < bits / 2) (h8 : bits / 2 % 8 = 0) (ho : bits % 2 = 1) (hf : bits ≤ fuel)
    {draw : Nat → RsaDraw} (hd : ∀ j, RsaDrawOk w bits (draw j)) (hev : 0 ≤ ev) (hev' : ev < 2 ^ 63) (hp : ∀ i < 10000, ∃ x y, Pair bits (draw i) x y) :
    (∀ i x y, ¬ KeyFound bits ev (draw i) x y) ∧ ∃ s', rsaKeygen w sp fuel n e p q bits ev draw s = .ok (0, s') := by
  have hno : ∀ i x y, ¬ KeyFound bits ev (draw i) x y := fun i x y h => by
    have := mem_rsa_pair_size hb h8 (hd i) h.toPair
    have := h.size
    omega
  refine ⟨hno, ?_⟩
  obtain ⟨st, s', e1, -, -, -, c⟩ := mem_rsa_keygen_partial hw hs hc hb h8 hf hd hev hev'
  rcases c with ⟨-, k, x, y, -, -, h, -⟩ | ⟨rfl, -⟩ | ⟨-, k, k1, -, h⟩
  · exact absurd h (hno k x y)
  · exact ⟨s', e1⟩
  · obtain ⟨x, y, h1, h2⟩ := hp k k1
    exfalso
    have clash : ∀ {d : Nat → PrimeDraw} {x : Nat}, FirstOk (bits / 2) d x → ¬ NoneOk (bits / 2) d := fun h h' => by
      obtain ⟨j, j1, j2, -⟩ := h
      exact h' j j1 j2
    rcases h with h | ⟨-, h⟩
    · exact clash h1 h
    · exact clash h2 h

/-- C100: a size whose half is not a positive multiple of 8 is refused: nothing but the exponent is written.  (When no
allocation fails.) -/
theorem mem_rsa_keygen_size (hw : DigitWidth w) (hs : Plenty s) (hA : Four sp n e p q) (ae : (s.obj e).Is w ze) (hb : bits / 2 = 0 ∨ bits / 2 % 8 ≠ 0)
    (draw : Nat → RsaDraw) (hev' : ev.natAbs < 2 ^ 63) :
    ∃ s', rsaKeygen w sp fuel n e p q bits ev draw s = .ok (-1, s') ∧ Balanced sp s s' ∧ (∀ v, v < sp → v ≠ e → s'.obj v = s.obj v) ∧
      (s'.obj e).Is w (if ev ≠ 0 then ev else ze) := by
  have hw0 : 0 < w := by have := hw.pos; omega
  have hp' := hA.p; have hq' := hA.q; have hn' := hA.n; have he' := hA.e
  have hK : (ctxOf sp s).Calm := hs
  obtain ⟨s1, e1, h1⟩ := decl_run (at_now sp s) 5
  obtain ⟨s2, e2, h2⟩ := const_at (N := 4) h1 1
  have ve : V w ze 0 (s2.obj e) := by
    have := h2.objs e (by omega)
    rw [Locals.lo (by omega), Function.update_of_ne (by omega)] at this
    rw [show s2.obj e = s.obj e from this]; exact is_v ae
  have h3 : ∃ s3, (if ev ≠ 0 then setInt w e ev else pure 0 : M Int) s2 = .ok (0, s3) ∧
      At (ctxOf sp s) (Locals (sp + 1) (Function.update (Function.update (Now s) e (V w (if ev ≠ 0 then ev else ze) 0)) sp (· = ⟨some ⟨false, 1, 1⟩, .mem false [some 1]⟩)) (· = Obj.fresh)) (sp + 1 + 4) s3 := by
    have fold : ∀ {s3 : St} {P : Obj → Prop}, At (ctxOf sp s) (Function.update (Locals (sp + 1) (Function.update (Now s) sp (· = (⟨some ⟨false, 1, 1⟩, .mem false [some 1]⟩ : Obj))) (· = Obj.fresh)) e P) (sp + 1 + 4) s3 →
        At (ctxOf sp s) (Locals (sp + 1) (Function.update (Function.update (Now s) e P) sp (· = (⟨some ⟨false, 1, 1⟩, .mem false [some 1]⟩ : Obj))) (· = Obj.fresh)) (sp + 1 + 4) s3 := fun h => h.le fun v hv o ho => by
      rw [Function.update_comm (by omega)]
      by_cases hve : v = e
      · subst hve; rw [Function.update_self] at ho; rw [Locals.lo (by omega), Function.update_self]; exact ho
      · rw [Function.update_of_ne hve] at ho
        by_cases hl : v < sp + 1
        · rw [Locals.lo hl] at ho ⊢; rw [Function.update_of_ne hve]; exact ho
        · rw [Locals.hi (by omega)] at ho ⊢; exact ho
    by_cases hz : ev = 0
    · refine ⟨s2, by rw [if_neg (by simpa using hz)]; rfl, fold (step_at h2 (by omega) (Step.refl _ _ _) ?_)⟩
      rw [if_neg (by simpa using hz)]; exact ve
    · obtain ⟨s3, e3, h3⟩ := calm_leaf hK h2 (r := e) (by omega) (setInt_leaf hw ve (v := ev) (by omega))
      refine ⟨s3, by rw [if_pos hz]; exact e3, fold ?_⟩
      rw [if_pos hz]; exact h3
  obtain ⟨s3, e3, h3⟩ := h3
  have hlist : ∀ v, v ∈ [sp + 1, sp + 2, sp + 3, sp + 4] ↔ sp + 1 ≤ v ∧ v < sp + 1 + 4 := by
    intro v; simp only [List.mem_cons, List.not_mem_nil, or_false]; omega
  obtain ⟨s4, e4, h4⟩ := initList_calm hw0 hK h3 hlist (by simp)
  obtain ⟨s6, e6, h6⟩ := clearList_calm h4 hlist
  have h7 := const_exit h6
  have hloop : rsaKeyLoop w sp fuel n e p q bits ev draw 10000 0 s4 = .ok (-1, s4) := by
    have hand : bits >>> 1 &&& 7 ≠ 0 ∨ bits >>> 1 = 0 := by
      have h1 : bits >>> 1 = bits / 2 := by rw [Nat.shiftRight_eq_div_pow, pow_one]
      have : bits / 2 &&& 7 = bits / 2 % 8 := Nat.and_two_pow_sub_one_eq_mod _ 3
      rw [h1]; omega
    have hp : prime w (sp + 5) fuel p (bits >>> 1) 10000 (draw 0).p s4 = .ok ((-1, 10000), s4) := by
      unfold prime; rw [if_pos hand]; rfl
    have ht : rsaTurn w sp fuel n e p q bits ev (draw 0) s4 = .ok ((-1, false), s4) := by
      unfold rsaTurn; rw [bind_ok hp]; rfl
    rw [rsaKeyLoop, bind_ok ht]; rfl
  refine ⟨s6, ?_, balanced_of h7, fun v hv hne => ?_, ?_⟩
  · unfold rsaKeygen
    rw [bind_ok e1, bind_ok e2, chk_ok e3, chk_ok e4, bind_ok hloop, bind_ok e6]; rfl
  · have := h7.objs v hv; rwa [Function.update_of_ne hne] at this
  · have := h7.objs e he'; rw [Function.update_self] at this; exact v_is this

/-- C100: with a random public exponent, a failure of one of the first four requests is reported and nothing has been changed. -/
theorem mem_rsa_keygen_nomem (hw : DigitWidth w) (hf : ∃ k, k < 4 ∧ s.fails (s.tick + k) = true) (draw : Nat → RsaDraw) :
    EndsSame sp s (rsaKeygen w sp fuel n e p q bits 0 draw) (-1) := by
  have hw0 : 0 < w := by have := hw.pos; omega
  obtain ⟨s1, e1, h1⟩ := decl_run (at_now sp s) 5
  have t1 : s1.tick = s.tick ∧ s1.fails = s.fails := by unfold decl at e1; cases e1; exact ⟨rfl, rfl⟩
  obtain ⟨s2, e2, h2⟩ := const_at (N := 4) h1 1
  have t2 : s2.tick = s.tick ∧ s2.fails = s.fails := by unfold setObj at e2; cases e2; exact t1
  have hlist : ∀ v, v ∈ [sp + 1, sp + 2, sp + 3, sp + 4] ↔ sp + 1 ≤ v ∧ v < sp + 1 + 4 := by
    intro v; simp only [List.mem_cons, List.not_mem_nil, or_false]; omega
  obtain ⟨s3, e3, h3⟩ := initList_lost hw0 h2 hlist (by simp) (by rw [t2.1, t2.2]; exact hf)
  have h4 := const_exit h3
  refine ⟨s3, ?_, fun v hv => h4.objs v hv, ?_⟩
  · unfold rsaKeygen
    rw [bind_ok e1, bind_ok e2, chk_ok (show (if (0 : Int) ≠ 0 then setInt w e 0 else pure 0 : M Int) s2 = .ok (0, s2) from rfl), chk_fail e3 (by decide)]
  · have hb := balanced_of h4
    unfold Balanced at hb
    rw [Finset.sum_congr rfl fun v hv => by rw [show s3.obj v = s.obj v from h4.objs v (Finset.mem_range.1 hv)]] at hb
    linarith

end

/-! ### A concrete case -/

/-- The numbers `n, e, p, q, d` of a context, all 1. -/
def exRsaKey : St := ⟨fun v => if v < 5 then ⟨some ⟨false, 1, 1⟩, .mem true [some 1]⟩ else Obj.fresh, fun _ => false, 0, 5⟩

theorem exRsaKey_at {v : Nat} (hv : v < 5) : (exRsaKey.obj v).Is 8 1 := by
  have h : exRsaKey.obj v = ⟨some ⟨false, 1, 1⟩, .mem true [some 1]⟩ := if_pos hv
  rw [h]
  exact ⟨⟨false, [1]⟩, (NatRep.one (w := 8) (by decide)).wf, (NatRep.one (w := 8) (by decide)).toInt, rfl, ⟨[], rfl⟩, Or.inr ⟨_, by simp, rfl⟩⟩

/-- The bytes: 193 and 197. -/
def exRsaDraw : RsaDraw := ⟨fun _ => ⟨[0xC1], fun _ => [1]⟩, fun _ => ⟨[0xC5], fun _ => [1]⟩, [1, 1]⟩

theorem exRsaDraw_ok : RsaDrawOk 8 16 exRsaDraw := by
  refine ⟨fun i => ⟨rfl, ?_, fun j _ => ⟨rfl, ?_⟩⟩, fun i => ⟨rfl, ?_, fun j _ => ⟨rfl, ?_⟩⟩, rfl, ?_⟩
  · show (2 ^ 8) ^ ((16 / 2 - 1) / 8) ≤ beVal [(0xC1 : Byte)]; decide +kernel
  · show (2 ^ 8) ^ ((16 / 2 - 1) / 8) ≤ beVal [(1 : Byte)]; decide +kernel
  · show (2 ^ 8) ^ ((16 / 2 - 1) / 8) ≤ beVal [(0xC5 : Byte)]; decide +kernel
  · show (2 ^ 8) ^ ((16 / 2 - 1) / 8) ≤ beVal [(1 : Byte)]; decide +kernel
  · decide +kernel

theorem FirstOk.unique {bits : Nat} {draw : Nat → PrimeDraw} {x y : Nat} (h1 : FirstOk bits draw x) (h2 : FirstOk bits draw y) : x = y := by
  obtain ⟨k, -, a2, a3, rfl⟩ := h1
  obtain ⟨l, -, b2, b3, rfl⟩ := h2
  rcases lt_trichotomy k l with h | rfl | h
  · exact absurd a2 (b3 k h)
  · rfl
  · exact absurd b2 (a3 l h)

/-- A key of 16 bits: 193 · 197 with the exponent 5; the private exponent stays 1. -/
example : ∃ s', rsaKeygen 8 5 16 0 1 2 3 16 5 (fun _ => exRsaDraw) exRsaKey = .ok (0, s') ∧ (s'.obj 0).Is 8 38021 ∧ (s'.obj 1).Is 8 5 ∧ (s'.obj 4).Is 8 1 := by
  have f1 : FirstOk (16 / 2) exRsaDraw.p 193 := by
    refine ⟨0, by decide, Or.inl ?_, by simp, by decide +kernel⟩
    show Nat.Prime (Spec.primeCandidate 8 (beVal [0xC1])) ∧ Spec.primeCandidate 8 (beVal [0xC1]) ≠ 2 ∧ Spec.primeCandidate 8 (beVal [0xC1]) < 1010
    rw [show Spec.primeCandidate 8 (beVal [0xC1]) = 193 by decide +kernel]; norm_num
  have f2 : FirstOk (16 / 2) exRsaDraw.q 197 := by
    refine ⟨0, by decide, Or.inl ?_, by simp, by decide +kernel⟩
    show Nat.Prime (Spec.primeCandidate 8 (beVal [0xC5])) ∧ Spec.primeCandidate 8 (beVal [0xC5]) ≠ 2 ∧ Spec.primeCandidate 8 (beVal [0xC5]) < 1010
    rw [show Spec.primeCandidate 8 (beVal [0xC5]) = 197 by decide +kernel]; norm_num
  have hA : Four 5 0 1 2 3 := by constructor <;> decide
  obtain ⟨st, s', e1, -, keep, -, c⟩ := mem_rsa_keygen_partial (w := 8) (s := exRsaKey) (sp := 5) (fuel := 16) (bits := 16) (ev := 5) (zn := 1) (ze := 1) (zp := 1) (zq := 1) (Or.inl rfl) (fun _ => rfl)
    ⟨hA, exRsaKey_at (by decide), exRsaKey_at (by decide), exRsaKey_at (by decide), exRsaKey_at (by decide), by decide, by decide, by decide⟩ (by decide) (by decide) (le_refl _)
    (draw := fun _ => exRsaDraw) (fun _ => exRsaDraw_ok) (by decide) (by decide)
  have noRetry : ¬ KeyRetry 16 5 exRsaDraw := by
    rintro ⟨x, y, ⟨h1, h2⟩, h⟩
    rw [h1.unique f1, h2.unique f2] at h
    revert h; decide +kernel
  rcases c with ⟨rfl, k, x, y, k1, k2, k3, k4, k5, k6, k7⟩ | ⟨-, h⟩ | ⟨-, k, -, -, h⟩
  · rw [k3.fst.unique f1, k3.snd.unique f2] at k6
    refine ⟨s', e1, k6, k7, ?_⟩
    rw [keep 4 (by decide) (by decide) (by decide) (by decide) (by decide)]; exact exRsaKey_at (by decide)
  · exact absurd (h 0 (by decide)) noRetry
  · exfalso
    rcases h with h | ⟨-, h⟩
    · obtain ⟨j, j1, j2, -⟩ := f1
      exact h j j1 j2
    · obtain ⟨j, j1, j2, -⟩ := f2
      exact h j j1 j2

/-- The same with three bytes for the exponent. -/
def exRsaOdd : RsaDraw := ⟨exRsaDraw.p, exRsaDraw.q, [1, 1, 1]⟩

theorem exRsaOdd_pair : Pair 17 exRsaOdd 193 197 := by
  refine ⟨⟨0, by decide, Or.inl ?_, by simp, by decide +kernel⟩, ⟨0, by decide, Or.inl ?_, by simp, by decide +kernel⟩⟩
  · show Nat.Prime (Spec.primeCandidate 8 (beVal [0xC1])) ∧ Spec.primeCandidate 8 (beVal [0xC1]) ≠ 2 ∧ Spec.primeCandidate 8 (beVal [0xC1]) < 1010
    rw [show Spec.primeCandidate 8 (beVal [0xC1]) = 193 by decide +kernel]; norm_num
  · show Nat.Prime (Spec.primeCandidate 8 (beVal [0xC5])) ∧ Spec.primeCandidate 8 (beVal [0xC5]) ≠ 2 ∧ Spec.primeCandidate 8 (beVal [0xC5]) < 1010
    rw [show Spec.primeCandidate 8 (beVal [0xC5]) = 197 by decide +kernel]; norm_num

/-- 17 bits: the primes 193 and 197 in every turn. -/
example : ∃ s', rsaKeygen 8 5 17 0 1 2 3 17 5 (fun _ => exRsaOdd) exRsaKey = .ok (0, s') := by
  have hA : Four 5 0 1 2 3 := by constructor <;> decide
  have h := mem_rsa_keygen_odd (w := 8) (s := exRsaKey) (sp := 5) (fuel := 17) (bits := 17) (ev := 5) (zn := 1) (ze := 1) (zp := 1) (zq := 1) (Or.inl rfl) (fun _ => rfl)
    ⟨hA, exRsaKey_at (by decide), exRsaKey_at (by decide), exRsaKey_at (by decide), exRsaKey_at (by decide), by decide, by decide, by decide⟩ (by decide) (by decide) (by decide) (le_refl _)
    (draw := fun _ => exRsaOdd) (fun _ => ⟨exRsaDraw_ok.p, exRsaDraw_ok.q, rfl, by decide +kernel⟩) (by decide) (by decide) (fun _ _ => ⟨193, 197, exRsaOdd_pair⟩)
  exact h.2

/-- A size of 20 bits is refused. -/
example : ∃ s', rsaKeygen 8 5 16 0 1 2 3 20 5 (fun _ => exRsaDraw) exRsaKey = .ok (-1, s') ∧ (s'.obj 1).Is 8 5 := by
  obtain ⟨s', e, -, -, h⟩ := mem_rsa_keygen_size (w := 8) (s := exRsaKey) (sp := 5) (fuel := 16) (n := 0) (e := 1) (p := 2) (q := 3) (bits := 20) (ev := 5) (ze := 1) (Or.inl rfl) (fun _ => rfl)
    (by constructor <;> decide) (exRsaKey_at (by decide)) (by decide) (fun _ => exRsaDraw) (by decide)
  exact ⟨s', e, h⟩

/-- The third request fails. -/
example : EndsSame 5 { exRsaKey with fails := (· == 2) } (rsaKeygen 8 5 16 0 1 2 3 16 0 fun _ => exRsaDraw) (-1) :=
  mem_rsa_keygen_nomem (Or.inl rfl) ⟨2, by decide, by decide⟩ _

end Verif.Mem
