import Verif.Lemmas.Mem.InvHang
import Verif.Props.Mem.Div
/-!
# C70–C72: powers, common divisors and inverses in memory

`cry_mpi_mod_exp`, `cry_mpi_exp`, `cry_mpi_gcd`, `cry_mpi_lcm` and `cry_mpi_inv` with all their local
objects.  Where an allocation request that fails is not reported, or worse, this is shown by a run.
-/
namespace Verif.Mem
open Verif.Mpi (Mpi Norm WF DigitWidth)

variable {w sp x y a b e m r : Nat} {s : St} {za zb ze zm zr zx zy : Int}

/-- C70, partial.  Full statement: whichever allocation requests fail, `cry_mpi_mod_exp` returns the power
reduced modulo a positive number, or reports failure and leaves the result as it was.  Proved: for every
number of failing requests but the very first one, and any of the four objects may coincide.
Missing: the first request, where it is false (`mem_modExp_first_failure`, `mem_modExp_first_failure_zero`).
The power with exponent 0 is 1 for every modulus, also for 1. -/
theorem mem_modExp_partial (hw : DigitWidth w) (hr : (s.obj r).Is w zr) (hb : (s.obj b).Shows w zb) (he : (s.obj e).Shows w ze)
    (hm : (s.obj m).Shows w zm) (hm0 : 0 < zm) (he0 : 0 ≤ ze) (hrs : r < sp) (hbs : b < sp) (hes : e < sp) (hms : m < sp)
    (h1 : s.fails s.tick = false) :
    Outcome sp s r (modExp w sp r b e (some m)) (Obj.Is w (if ze = 0 then 1 else zb ^ ze.toNat % zm)) (· = s.obj r) :=
  ((modExp_leaf (m := some m) (zm := some zm) hw ⟨zr, V.of_is hr⟩ hb he ⟨hm, hm0⟩ hrs hbs hes (fun v e => by cases e; exact hms) he0 h1).mono (fun _ h => h.is) fun _ h => h).outcome

/-- C70, partial in the same way: `cry_mpi_exp`. -/
theorem mem_exp_partial (hw : DigitWidth w) (hr : (s.obj r).Is w zr) (hb : (s.obj b).Shows w zb) (he : (s.obj e).Shows w ze)
    (he0 : 0 ≤ ze) (hrs : r < sp) (hbs : b < sp) (hes : e < sp) (h1 : s.fails s.tick = false) :
    Outcome sp s r (exp w sp r b e) (Obj.Is w (zb ^ ze.toNat)) (· = s.obj r) := by
  refine ((modExp_leaf (m := none) (zm := none) hw ⟨zr, V.of_is hr⟩ hb he trivial hrs hbs hes (fun v e => by cases e) he0 h1).mono (fun _ h => ?_) fun _ h => h).outcome
  split_ifs at h with h0
  · rw [h0]; simpa using h.is
  · exact h.is

/-- C70: a negative exponent is refused and changes nothing. -/
theorem mem_modExp_negative (he : (s.obj e).Shows w ze) (he0 : ze < 0) (hes : e < sp) (hm : (s.obj m).Shows w zm) (hms : m < sp) :
    ∃ s', modExp w sp r b e (some m) s = .ok (-1, s') ∧ (∀ v, v < sp → s'.obj v = s.obj v) ∧ s'.live = s.live ∧ s'.tick = s.tick := by
  obtain ⟨me, e1, e2, c, e4, e5⟩ := he
  obtain ⟨mm, m1, m2, c', m4, m5⟩ := hm
  have hn : me.neg = true := by
    cases h : me.neg with
    | true => rfl
    | false =>
      rw [Mpi.toInt_false h] at e2
      omega
  refine ⟨{ s with obj := fun p => if sp ≤ p ∧ p < sp + 1 then Obj.fresh else s.obj p }, ?_,
    fun v hv => if_neg (by omega), rfl, rfl⟩
  unfold modExp
  refine (bind_ok (a := ()) (s' := { s with obj := fun p => if sp ≤ p ∧ p < sp + 1 then Obj.fresh else s.obj p }) rfl).trans ?_
  rw [bind_ok (hdr_ok (h := ⟨me.neg, me.digs.length, c⟩) (by
    show (if sp ≤ e ∧ e < sp + 1 then Obj.fresh else s.obj e).hdr = _
    rw [if_neg (by omega)]; exact e4))]
  have hneg : negOpt (some m) { s with obj := fun p => if sp ≤ p ∧ p < sp + 1 then Obj.fresh else s.obj p } =
      .ok (mm.neg, { s with obj := fun p => if sp ≤ p ∧ p < sp + 1 then Obj.fresh else s.obj p }) := by
    rw [negOpt]
    rw [bind_ok (hdr_ok (h := ⟨mm.neg, mm.digs.length, c'⟩) (by
      show (if sp ≤ m ∧ m < sp + 1 then Obj.fresh else s.obj m).hdr = _
      rw [if_neg (by omega)]; exact m4))]
    rfl
  rw [bind_ok hneg, if_pos (Or.inl hn)]
  rfl

/-- C71: `cry_mpi_gcd` of two numbers other than 0, any of the three objects may coincide.  The result is the greatest
common divisor up to sign, and positive if the second number is. -/
theorem mem_gcd (hw : DigitWidth w) (hr : (s.obj r).Is w zr) (hx : (s.obj x).Shows w zx) (hy : (s.obj y).Shows w zy)
    (hx0 : zx ≠ 0) (hy0 : zy ≠ 0) (hrs : r < sp) (hxs : x < sp) (hys : y < sp) :
    Outcome sp s r (gcd w sp r x y) (fun o => ∃ z, o.Is w z ∧ z.natAbs = Int.gcd zx zy ∧ (0 < zy → 0 < z)) (fun o => ∃ z, o.Is w z) :=
  ((gcd_leaf hw ⟨zr, V.of_is hr⟩ hx hy hx0 hy0 hrs hxs hys).mono
    (fun _ h => by obtain ⟨z, z1, z2⟩ := h; exact ⟨z, z1.is, z2⟩) (fun _ h => h.imp fun _ h => h.is)).outcome

/-- C71: `cry_mpi_lcm` of two positive numbers. -/
theorem mem_lcm (hw : DigitWidth w) (hr : (s.obj r).Is w zr) (hx : (s.obj x).Shows w zx) (hy : (s.obj y).Shows w zy)
    (hx0 : 0 < zx) (hy0 : 0 < zy) (hrs : r < sp) (hxs : x < sp) (hys : y < sp) :
    Outcome sp s r (lcm w sp r x y) (Obj.Is w (Int.lcm zx zy)) (fun o => ∃ z, o.Is w z) :=
  ((lcm_leaf hw ⟨zr, V.of_is hr⟩ hx hy hx0 hy0 hrs hxs hys).mono (fun _ h => h.is) (fun _ h => h.imp fun _ h => h.is)).outcome

/-- C72, partial.  Full statement: whichever allocation requests fail, `cry_mpi_inv` returns the inverse or reports
that there is none or that a request failed.  Proved: if no request fails and the result is not the modulus.
Missing: failing requests and the result over the modulus, where it is false (`mem_inv_failure_lost`,
`mem_inv_alias_wrong`). -/
theorem mem_inv_partial (hw : DigitWidth w) (hf : ∀ k, s.fails k = false) (hr : (s.obj r).Is w zr) (ha : (s.obj a).Shows w za)
    (hm : (s.obj m).Shows w zm) (hm0 : 0 < zm) (hrs : r < sp) (has : a < sp) (hms : m < sp) (hrm : r ≠ m) :
    ∃ st s', inv w sp r a m s = .ok (st, s') ∧ (∀ v, v < sp → v ≠ r → s'.obj v = s.obj v) ∧
      s'.live - (s'.obj r).owns = s.live - (s.obj r).owns ∧
      (Int.gcd za zm = 1 → st = 0 ∧ ∃ z, (s'.obj r).Is w z ∧ 0 ≤ z ∧ z < zm ∧ za * z ≡ 1 [ZMOD zm]) ∧
      (Int.gcd za zm ≠ 1 → st = -1 ∧ s'.obj r = s.obj r) := by
  obtain ⟨st, s', e, h1, h2⟩ := inv_run hw hf ⟨zr, V.of_is hr⟩ ha hm hm0 hrs has hms hrm
  have ht : Step sp s s' r := by
    by_cases hg : Int.gcd za zm = 1
    · exact (h1 hg).2.1
    · exact (h2 hg).2.1
  refine ⟨st, s', e, ht.frame, by have := ht.live; omega, fun hg => ?_, fun hg => ⟨(h2 hg).1, (h2 hg).2.2⟩⟩
  obtain ⟨h3, -, z, z1, z2⟩ := h1 hg
  exact ⟨h3, z, z1.is, z2⟩

/-! ### Concrete cases -/

theorem exDiv3 (f : Nat → Bool) : ((exDiv f).obj 3).Is 8 3 :=
  ⟨⟨false, [3]⟩, wf1 (by decide) (by decide), by decide, rfl, ⟨[], rfl⟩, Or.inr ⟨[some 3], by simp, rfl⟩⟩

/-- (−78)³ modulo 7, over the modulus. -/
example (f : Nat → Bool) (h : f 0 = false) : Outcome 6 (exDiv f) 2 (modExp 8 6 2 1 3 (some 2)) (Obj.Is 8 (if (3 : Int) = 0 then 1 else (-78) ^ 3 % 7))
    (· = (exDiv f).obj 2) :=
  mem_modExp_partial (Or.inl rfl) (exDiv2 f) (exDiv1 f).shows (exDiv3 f).shows (exDiv2 f).shows (by decide) (by decide) (by decide) (by decide)
    (by decide) (by decide) h
/-- 200⁷, over the base. -/
example (f : Nat → Bool) (h : f 0 = false) : Outcome 6 (exDiv f) 0 (exp 8 6 0 0 2) (Obj.Is 8 (200 ^ 7)) (· = (exDiv f).obj 0) :=
  mem_exp_partial (Or.inl rfl) (exDiv0 f) (exDiv0 f).shows (exDiv2 f).shows (by decide) (by decide) (by decide) (by decide) h
example (f : Nat → Bool) : ∃ s', modExp 8 6 5 0 1 (some 2) (exDiv f) = .ok (-1, s') ∧ (∀ v, v < 6 → s'.obj v = (exDiv f).obj v) ∧ s'.live = 5 ∧ s'.tick = 0 :=
  mem_modExp_negative (exDiv1 f).shows (by decide) (by decide) (exDiv2 f).shows (by decide)
/-- Both ways out do occur. -/
example : (∃ s', modExp 8 6 5 1 3 (some 2) (exDiv fun _ => false) = .ok (0, s') ∧
      decide (s'.live = 6 ∧ (s'.obj 5).hdr.map Hdr.used = some 1 ∧ (s'.obj 5).cells[0]? = some (some 6)) = true) ∧
    ∃ s', modExp 8 6 5 1 3 (some 2) (exDiv fun k => k == 9) = .ok (-1, s') ∧ decide (s'.live = 5) = true :=
  ⟨endsIn_ok (by decide +kernel), endsIn_ok (by decide +kernel)⟩

/-- The greatest common divisor of 200 and −78, over the first. -/
example (f : Nat → Bool) : Outcome 6 (exDiv f) 0 (gcd 8 6 0 0 1)
    (fun o => ∃ z, o.Is 8 z ∧ z.natAbs = Int.gcd 200 (-78) ∧ (0 < (-78 : Int) → 0 < z)) (fun o => ∃ z, o.Is 8 z) :=
  mem_gcd (Or.inl rfl) (exDiv0 f) (exDiv0 f).shows (exDiv1 f).shows (by decide) (by decide) (by decide) (by decide) (by decide)
example : ∃ s', gcd 8 6 5 1 0 (exDiv fun _ => false) = .ok (0, s') ∧
    decide (s'.live = 6 ∧ (s'.obj 5).hdr.map Hdr.used = some 1 ∧ (s'.obj 5).cells[0]? = some (some 2)) = true := endsIn_ok (by decide +kernel)
example (f : Nat → Bool) : Outcome 6 (exDiv f) 2 (lcm 8 6 2 0 2) (Obj.Is 8 (Int.lcm 200 7)) (fun o => ∃ z, o.Is 8 z) :=
  mem_lcm (Or.inl rfl) (exDiv2 f) (exDiv0 f).shows (exDiv2 f).shows (by decide) (by decide) (by decide) (by decide) (by decide)

/-- The inverse of −78 modulo 7 exists; that of −78 modulo 200 does not. -/
example : ∃ st s', inv 8 6 1 1 2 (exDiv fun _ => false) = .ok (st, s') ∧ st = 0 ∧ ∃ z, (s'.obj 1).Is 8 z ∧ 0 ≤ z ∧ z < 7 ∧ -78 * z ≡ 1 [ZMOD 7] := by
  obtain ⟨st, s', e, -, -, h, -⟩ := mem_inv_partial (w := 8) (sp := 6) (r := 1) (a := 1) (m := 2) (s := exDiv fun _ => false) (Or.inl rfl) (fun _ => rfl)
    (exDiv1 _) (exDiv1 _).shows (exDiv2 _).shows (by decide) (by decide) (by decide) (by decide) (by decide)
  exact ⟨st, s', e, h (by decide)⟩
example : ∃ st s', inv 8 6 5 1 0 (exDiv fun _ => false) = .ok (st, s') ∧ st = -1 ∧ s'.obj 5 = (exDiv fun _ => false).obj 5 := by
  obtain ⟨st, s', e, -, -, -, h⟩ := mem_inv_partial (w := 8) (sp := 6) (r := 5) (a := 1) (m := 0) (s := exDiv fun _ => false) (Or.inl rfl) (fun _ => rfl)
    (exDiv5 _) (exDiv1 _).shows (exDiv0 _).shows (by decide) (by decide) (by decide) (by decide) (by decide)
  exact ⟨st, s', e, h (by decide)⟩

/-! ### Where it fails -/

/-- Whether a run is undefined. -/
def isUb (c : Out (Int × St)) : Bool :=
  match c with
  | .ub => true
  | _ => false

/-- C70, where it fails: if the first allocation request fails, an uninitialised number is squared. -/
theorem mem_modExp_first_failure : isUb (modExp 8 6 5 0 3 (some 2) (exDiv fun k => k == 0)) = true := by decide +kernel

/-- C70, where it fails: with exponent 0 the failure of that request is reported, but the result's own digits are
gone and its members are uninitialised. -/
theorem mem_modExp_first_failure_zero : ∃ s', modExp 8 6 0 0 4 (some 2) (exDiv fun k => k == 0) = .ok (-1, s') ∧
    decide ((s'.obj 0).hdr.isNone ∧ s'.live = 4) = true := endsIn_ok (by decide +kernel)

/-- C71, where it fails: the greatest common divisor with 0, on either side, reads a digit that was never written. -/
theorem mem_gcd_zero : isUb (gcd 8 6 5 0 4 (exDiv fun _ => false)) = true ∧ isUb (gcd 8 6 5 4 0 (exDiv fun _ => false)) = true :=
  ⟨by decide +kernel, by decide +kernel⟩

/-- C71, where it fails: the least common multiple of 200 and −78 dereferences the null pointer. -/
theorem mem_lcm_negative : isUb (lcm 8 6 5 0 1 (exDiv fun _ => false)) = true := by decide +kernel

/-- C72, where it fails: if the 23rd allocation request fails, the inverse of 200 modulo 7 is said to be 0, with
status 0.  (It is 2, which is found if no request fails.) -/
theorem mem_inv_failure_lost :
    (∃ s', inv 8 6 5 0 2 (exDiv fun k => k == 22) = .ok (0, s') ∧ decide ((s'.obj 5).hdr.map Hdr.used = some 0) = true) ∧
    ∃ s', inv 8 6 5 0 2 (exDiv fun _ => false) = .ok (0, s') ∧ decide ((s'.obj 5).cells[0]? = some (some 2)) = true :=
  ⟨endsIn_ok (by decide +kernel), endsIn_ok (by decide +kernel)⟩

/-- C72, where it fails: if the first five allocation requests succeed and no later one does, the inverse of a positive
number modulo another (at most eight digits each) never returns: whatever number of turns the loop is granted, it
uses them up. -/
theorem mem_inv_never_returns {w sp r a m : Nat} {s : St} {X N : Int} (hw : Verif.Mpi.DigitWidth w) (turns : Nat → Nat)
    (hf5 : ∀ k, s.tick ≤ k → k < s.tick + 5 → s.fails k = false) (hfx : ∀ k, s.tick + 5 ≤ k → s.fails k = true)
    (ha : (s.obj a).Shows w X) (hm : (s.obj m).Shows w N) (hX : 0 < X) (hN : 0 < N) (hXb : X < 2 ^ (8 * w)) (hNb : N < 2 ^ (8 * w))
    (has : a < sp) (hms : m < sp) : invTurns turns w sp r a m s = .hang :=
  invTurns_exhausted hw turns hf5 hfx ha hm hX hN hXb hNb has hms

example (turns : Nat → Nat) : invTurns turns 8 6 5 0 2 (exDiv fun k => 5 ≤ k) = .hang :=
  mem_inv_never_returns (Or.inl rfl) turns (fun k _ h => by show decide (5 ≤ k) = false; simpa [exDiv] using h)
    (fun k h => by show decide (5 ≤ k) = true; simpa [exDiv] using h) (exDiv0 _).shows (exDiv2 _).shows (by decide) (by decide) (by decide) (by decide)
    (by decide) (by decide)

/-- C72, where it fails: the inverse of 3 modulo 7, written over the modulus, is 0 with status 0. -/
theorem mem_inv_alias_wrong :
    ∃ s', inv 8 6 2 3 2 (exDiv fun _ => false) = .ok (0, s') ∧ decide ((s'.obj 2).hdr.map Hdr.used = some 0) = true :=
  endsIn_ok (by decide +kernel)

end Verif.Mem
