import Verif.Lemmas.Mem.DivAbs
import Verif.Props.Mem.Basic
/-!
# C69: division of numbers in memory

Long division with its five temporaries, the signed division and the reduction modulo a number: whatever
objects coincide and whichever allocation requests fail, no undefined behaviour, the right quotient and
remainder or a reported failure, no leak.  Where this is not so the exception is shown by a run.
-/
namespace Verif.Mem
open Verif.Mpi (Mpi Norm WF DigitWidth)

variable {w sp a b m r q : Nat} {rq rr : Option Nat} {s : St} {za zb zm zr : Int}

/-- C69: `cry_mpi_div_abs`.  Either output may be absent (`NULL`) and may coincide with `a` or `b`; the
two outputs are different objects.  The remainder of a number smaller than the divisor keeps its sign. -/
theorem mem_divAbs (hw : DigitWidth w) (ha : (s.obj a).Shows w za) (hb : (s.obj b).Shows w zb) (has : a < sp) (hbs : b < sp)
    (hb0 : zb ≠ 0) (hq : ∀ v, rq = some v → v < sp ∧ ∃ z, (s.obj v).Is w z) (hr : ∀ v, rr = some v → v < sp ∧ ∃ z, (s.obj v).Is w z)
    (hne : ∀ v, rq = some v → rr ≠ some v) :
    Outcomes sp s (rq.toList ++ rr.toList) (divAbs w sp rq rr a b)
      (fun v o => (rq = some v → o.Is w (|za| / |zb|)) ∧ (rr = some v → o.Is w (if |za| < |zb| then za else |za| % |zb|)))
      (fun _ o => ∃ z, o.Is w z) := by
  have hq' : ∀ v, rq = some v → v < sp ∧ ∃ z, V w z 0 (s.obj v) := fun v e => ⟨(hq v e).1, (hq v e).2.imp fun _ h => V.of_is h⟩
  have hr' : ∀ v, rr = some v → v < sp ∧ Any w (s.obj v) := fun v e => ⟨(hr v e).1, (hr v e).2.imp fun _ h => V.of_is h⟩
  obtain ⟨st, s', e, h1, h2, h3⟩ := outcomes_of_res (fun v e => (hq v e).1) (fun v e => (hr v e).1) hne
    (divAbs_res hw ha hb has hbs hb0 (Nat.zero_le 2) hq' hr' hne)
  refine ⟨st, s', e, h1, h2, ?_⟩
  rcases h3 with ⟨e0, h⟩ | ⟨e0, f, h⟩
  · exact Or.inl ⟨e0, fun v hv => ⟨fun e => by obtain ⟨m, m1, m2, m3, _⟩ := (h v hv).1 e; exact ⟨m, m1, m2, m3.1⟩, fun e => ((h v hv).2 e).is⟩⟩
  · refine Or.inr ⟨e0, f, fun v hv => ?_⟩
    rw [List.mem_append, Option.mem_toList, Option.mem_toList] at hv
    rcases hv with hv | hv
    · exact ((h v (by simp [Option.mem_toList, Option.mem_def.1 hv])).1 hv).imp fun _ h => h.is
    · exact ((h v (by simp [Option.mem_toList, Option.mem_def.1 hv])).2 hv).imp fun _ h => h.is

/-- C69: division by zero is refused and changes nothing. -/
theorem mem_divAbs_zero (hb : (s.obj b).Shows w 0) (hbs : b < sp) (rq rr : Option Nat) (a : Nat) :
    ∃ s', divAbs w sp rq rr a b s = .ok (-1, s') ∧ (∀ v, v < sp → s'.obj v = s.obj v) ∧ s'.live = s.live ∧ s'.tick = s.tick := by
  obtain ⟨mb, b1, b2, c, b4, b5⟩ := hb
  have h0 : mb.digs = [] := (Mpi.toInt_eq_zero_iff (Nat.two_pow_pos w) b1.toNorm).1 b2
  refine ⟨{ s with obj := fun p => if sp ≤ p ∧ p < sp + 5 then Obj.fresh else s.obj p }, ?_,
    fun v hv => if_neg (by omega), rfl, rfl⟩
  unfold divAbs
  refine (bind_ok (a := ()) (s' := { s with obj := fun p => if sp ≤ p ∧ p < sp + 5 then Obj.fresh else s.obj p }) rfl).trans ?_
  rw [bind_ok (hdr_ok (h := ⟨mb.neg, mb.digs.length, c⟩) (by
    show (if sp ≤ b ∧ b < sp + 5 then Obj.fresh else s.obj b).hdr = _
    rw [if_neg (by omega)]; exact b4))]
  rw [if_pos (by rw [h0]; rfl)]
  rfl

/-- C69, partial.  Full statement: `cry_mpi_div` rounds down for every divisor other than 0, every aliasing and
absent outputs.  Proved: for a positive divisor, provided that either the dividend is not negative,
or the division leaves a remainder, the quotient has two digits of room and the divisor is not an output.
Missing: the rest, which is false of the code (`mem_div_failure_lost`, `mem_mod_alias_wrong`,
`mem_div_null_remainder`; signs: C06). -/
theorem mem_div_partial (hw : DigitWidth w) (ha : (s.obj a).Shows w za) (hb : (s.obj b).Shows w zb) (has : a < sp) (hbs : b < sp)
    (hb0 : 0 < zb) (hq : ∀ v, rq = some v → v < sp ∧ ∃ z, (s.obj v).Is w z) (hrs : r < sp) (hr : (s.obj r).Is w zr) (hne : rq ≠ some r)
    (h : 0 ≤ za ∨ (¬ zb ∣ za ∧ (∀ v, rq = some v → 2 ≤ (s.obj v).cells.length) ∧ b ≠ r ∧ rq ≠ some b)) :
    Outcomes sp s (rq.toList ++ [r]) (div w sp rq (some r) a b)
      (fun v o => (rq = some v → o.Is w (za / zb)) ∧ (v = r → o.Is w (za % zb))) (fun _ o => ∃ z, o.Is w z) := by
  have hadj : Adj za zb ↔ za < 0 ∧ ¬ zb ∣ za := by
    unfold Adj
    rw [abs_of_pos hb0, ne_eq, ← Int.dvd_iff_emod_eq_zero, dvd_abs]
    have : ¬ zb < 0 := by omega
    simp only [this, iff_false, not_not]
  obtain ⟨n, hn, hq', ha'⟩ : ∃ n, n ≤ 2 ∧ (∀ v, rq = some v → v < sp ∧ ∃ z, V w z n (s.obj v)) ∧ (Adj za zb → n = 2 ∧ b ≠ r ∧ rq ≠ some b) := by
    rcases h with h | ⟨h1, h2, h3, h4⟩
    · exact ⟨0, by omega, fun v e => ⟨(hq v e).1, (hq v e).2.imp fun _ h => V.of_is h⟩, fun h' => absurd (hadj.1 h').1 (by omega)⟩
    · refine ⟨2, le_refl _, fun v e => ⟨(hq v e).1, ?_⟩, fun _ => ⟨rfl, h3, h4⟩⟩
      obtain ⟨z, m, m1, m2, m3⟩ := (hq v e).2
      exact ⟨z, m, m1, m2, m3, h2 v e⟩
  have hdiv : (if Adj za zb then -(|za| / |zb|) - 1 else |za| / |zb|) = za / zb := by
    rw [abs_of_pos hb0]
    split_ifs with hA
    · rw [abs_of_neg (hadj.1 hA).1]
      exact neg_ediv_adj hb0 (hadj.1 hA).2
    · rcases h with h | h
      · rw [abs_of_nonneg h]
      · rw [abs_of_nonneg]
        by_contra h'
        exact hA (hadj.2 ⟨by omega, h.1⟩)
  have hmod := mod_adj za hb0
  obtain ⟨st, s', e, h1, h2, h3⟩ := outcomes_of_res (fun v e => (hq v e).1) (fun v e => by cases e; exact hrs) (fun v e e' => hne (by rw [e, e']))
    (div_res hw ha hb has hbs (by omega) hn hq' hrs ⟨zr, V.of_is hr⟩ hne ha')
  rw [hdiv, hmod] at h3
  refine ⟨st, s', e, h1, h2, ?_⟩
  rcases h3 with ⟨e0, h⟩ | ⟨e0, f, h⟩
  · exact Or.inl ⟨e0, fun v hv => ⟨fun e => ((h v hv).1 e).is, fun e => ((h v hv).2 (by rw [e])).is⟩⟩
  · refine Or.inr ⟨e0, f, fun v hv => ?_⟩
    have hv' := hv
    rw [List.mem_append, Option.mem_toList] at hv
    rcases hv with hv | hv
    · exact ((h v hv').1 hv).imp fun _ h => h.is
    · exact ((h v hv').2 (by rw [List.mem_singleton.1 hv])).imp fun _ h => h.is

/-- C69: `cry_mpi_mod` by a positive number; the dividend may be negative, and `r` may be `a`, or `m` if the
dividend is not negative. -/
theorem mem_mod (hw : DigitWidth w) (ha : (s.obj a).Shows w za) (hm : (s.obj m).Shows w zm) (has : a < sp) (hms : m < sp)
    (hm0 : 0 < zm) (hrs : r < sp) (hr : (s.obj r).Is w zr) (h : 0 ≤ za ∨ m ≠ r) :
    Outcome sp s r (mod w sp r a m) (Obj.Is w (za % zm)) (fun o => ∃ z, o.Is w z) := by
  refine ((leaf_of_res hrs (div_res (rq := none) (n := 2) hw ha hm has hms (by omega) (le_refl _) (fun v e => by cases e) hrs
    ⟨zr, V.of_is hr⟩ (by simp) fun hA => ⟨rfl, ?_, by simp⟩)).mono (fun o h => ?_) (fun o h => h.imp fun _ h => h.is)).outcome
  · rcases h with h | h
    · exact absurd hA.1 (by rw [not_not]; omega)
    · exact h
  · rw [mod_adj za hm0] at h; exact h.is

/-! ### Concrete cases -/

/-- Objects 0 to 3 are 200, −78, 7 and 3 in arrays of one digit of 8 bits; 4 is 0 in an array of two digits, the
others own nothing. -/
def exDiv (f : Nat → Bool) : St :=
  ⟨fun v => if v = 0 then exObj else if v = 1 then ⟨some ⟨true, 1, 1⟩, .mem true [some 78]⟩ else
    if v = 2 then ⟨some ⟨false, 1, 1⟩, .mem true [some 7]⟩ else if v = 3 then ⟨some ⟨false, 1, 1⟩, .mem true [some 3]⟩ else
    if v = 4 then ⟨some ⟨false, 0, 2⟩, .mem true [none, none]⟩ else ⟨some ⟨false, 0, 0⟩, .null⟩, f, 0, 5⟩

theorem Obj.Is.shows {o : Obj} {z : Int} (h : o.Is w z) : o.Shows w z := by
  obtain ⟨m, h1, h2, h3⟩ := h; exact ⟨m, h1, h2, h3.reads⟩

/-- Whether a run returns `st` in a state satisfying `p`. -/
def endsIn (c : Out (Int × St)) (st : Int) (p : St → Bool) : Bool :=
  match c with
  | .ok (st', s') => st' == st && p s'
  | _ => false

theorem endsIn_ok {c : Out (Int × St)} {st : Int} {p : St → Bool} (h : endsIn c st p = true) : ∃ s', c = .ok (st, s') ∧ p s' = true := by
  unfold endsIn at h
  split at h
  · rw [Bool.and_eq_true, beq_iff_eq] at h
    obtain ⟨rfl, h⟩ := h
    exact ⟨_, rfl, h⟩
  · cases h

theorem wf1 {neg : Bool} {d : Nat} (h0 : d ≠ 0) (h : d < 2 ^ 8) : WF (2 ^ 8) ⟨neg, [d]⟩ :=
  ⟨⟨fun e he => by simp at he; subst he; exact h, by simpa [Mpi.TopNZ] using h0⟩, by simp⟩
theorem wf0 : WF (2 ^ 8) ⟨false, []⟩ := ⟨⟨fun e he => by simp at he, by simp [Mpi.TopNZ]⟩, by simp⟩

theorem exDiv0 (f : Nat → Bool) : ((exDiv f).obj 0).Is 8 200 := exObj_is
theorem exDiv1 (f : Nat → Bool) : ((exDiv f).obj 1).Is 8 (-78) :=
  ⟨⟨true, [78]⟩, wf1 (by decide) (by decide), by decide, rfl, ⟨[], rfl⟩, Or.inr ⟨[some 78], by simp, rfl⟩⟩
theorem exDiv2 (f : Nat → Bool) : ((exDiv f).obj 2).Is 8 7 :=
  ⟨⟨false, [7]⟩, wf1 (by decide) (by decide), by decide, rfl, ⟨[], rfl⟩, Or.inr ⟨[some 7], by simp, rfl⟩⟩
theorem exDiv4 (f : Nat → Bool) : ((exDiv f).obj 4).Is 8 0 :=
  ⟨⟨false, []⟩, wf0, by decide, rfl, ⟨[none, none], rfl⟩, Or.inr ⟨[none, none], by simp, rfl⟩⟩
theorem exDiv5 (f : Nat → Bool) : ((exDiv f).obj 5).Is 8 0 :=
  ⟨⟨false, []⟩, wf0, by decide, rfl, ⟨[], rfl⟩, Or.inl rfl⟩

/-- 200 = 28·7 + 4, the quotient over the divisor, the remainder over the dividend. -/
example (f : Nat → Bool) : Outcomes 6 (exDiv f) [2, 0] (divAbs 8 6 (some 2) (some 0) 0 2)
    (fun v o => (some 2 = some v → o.Is 8 (|200| / |7|)) ∧ (some 0 = some v → o.Is 8 (if |(200 : Int)| < |7| then 200 else |200| % |7|)))
    (fun _ o => ∃ z, o.Is 8 z) :=
  mem_divAbs (Or.inl rfl) (exDiv0 f).shows (exDiv2 f).shows (by decide) (by decide) (by decide)
    (fun v e => by cases e; exact ⟨by decide, _, exDiv2 f⟩) (fun v e => by cases e; exact ⟨by decide, _, exDiv0 f⟩)
    (fun v e => by cases e; decide)

/-- −78 = −12·7 + 6. -/
example (f : Nat → Bool) : Outcomes 6 (exDiv f) [4, 5] (div 8 6 (some 4) (some 5) 1 2)
    (fun v o => (some 4 = some v → o.Is 8 (-78 / 7)) ∧ (v = 5 → o.Is 8 (-78 % 7))) (fun _ o => ∃ z, o.Is 8 z) :=
  mem_div_partial (Or.inl rfl) (exDiv1 f).shows (exDiv2 f).shows (by decide) (by decide) (by decide)
    (fun v e => by cases e; exact ⟨by decide, _, exDiv4 f⟩) (by decide) (exDiv5 f) (by decide)
    (Or.inr ⟨by decide, fun v e => by cases e; exact le_refl 2, by decide, by decide⟩)

example (f : Nat → Bool) : Outcome 6 (exDiv f) 1 (mod 8 6 1 1 2) (Obj.Is 8 (-78 % 7)) (fun o => ∃ z, o.Is 8 z) :=
  mem_mod (Or.inl rfl) (exDiv1 f).shows (exDiv2 f).shows (by decide) (by decide) (by decide) (by decide) (exDiv1 f) (Or.inr (by decide))

/-- Both ways out do occur, with the temporaries given back. -/
example : (∃ s', mod 8 6 1 1 2 (exDiv fun _ => false) = .ok (0, s') ∧
      decide (s'.live = 5 ∧ (s'.obj 1).hdr.map Hdr.neg = some false ∧ (s'.obj 1).cells[0]? = some (some 6)) = true) ∧
    ∃ s', mod 8 6 1 1 2 (exDiv fun k => k == 3) = .ok (-1, s') ∧ decide (s'.live = 5) = true :=
  ⟨endsIn_ok (by decide +kernel), endsIn_ok (by decide +kernel)⟩

/-! ### Where it fails -/

/-- C69, where it fails: if the quotient owns no array and the only allocation request of the final correction
fails, the failure is not reported and the quotient of −78 by 200 is left at a negative zero. -/
theorem mem_div_failure_lost :
    ∃ s', div 8 6 (some 5) (some 4) 1 0 (exDiv fun k => k == 0) = .ok (0, s') ∧ s'.tick = 1 ∧
      (s'.obj 5).hdr = some ⟨true, 0, 0⟩ := ⟨_, rfl, rfl, rfl⟩

/-- C69, where it fails: −78 reduced modulo 7 into the object of the modulus is 0, not 6. -/
theorem mem_mod_alias_wrong :
    ∃ s', mod 8 6 2 1 2 (exDiv fun _ => false) = .ok (0, s') ∧ decide ((s'.obj 2).hdr.map Hdr.used = some 0) = true :=
  endsIn_ok (by decide +kernel)

/-- C69, where it fails: without an object for the remainder, the division of numbers of different sign
dereferences the null pointer. -/
theorem mem_div_null_remainder :
    (match div 8 6 (some 4) none 1 2 (exDiv fun _ => false) with
      | .ub => true
      | _ => false) = true := by decide +kernel

end Verif.Mem
