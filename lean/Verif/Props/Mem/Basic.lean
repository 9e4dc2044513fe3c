import Verif.Lemmas.Mem.Rules
/-!
# C67: basic operations on numbers in memory

Whatever objects coincide and whichever allocation requests fail: no undefined behaviour, the right result or
a reported failure, no leak.
-/
namespace Verif.Mem
open Verif.Mpi (Mpi Norm WF)

theorem Leaf.outcome {sp : Nat} {s : St} {r : Nat} {c : M Int} {good bad : Obj → Prop} (h : Leaf sp s r c good bad) :
    Outcome sp s r c good bad := by
  obtain ⟨st, s', h1, h2, h3⟩ := h
  exact ⟨st, s', h1, h2.frame, by have := h2.live; omega, h3⟩

variable {w sp r x y d a c : Nat} {s : St} {zr zx zy zd za zc : Int}

/-- C67: `cry_mpi_copy` for any destination and source, also the same one. -/
theorem mem_copy (hd : (s.obj d).Is w zd) (hx : (s.obj x).Shows w zx) :
    Outcome sp s d (copy d x) (Obj.Is w zx) (Obj.Is w zd) :=
  ((copy_leaf (V.of_is hd) hx).mono (fun _ h => h.is) (fun _ h => h.is)).outcome

/-- C67: `cry_mpi_abs`. -/
theorem mem_abs (hd : (s.obj d).Is w zd) (hx : (s.obj x).Shows w zx) :
    Outcome sp s d (abs d x) (Obj.Is w |zx|) (Obj.Is w zd) :=
  ((abs_leaf (V.of_is hd) hx).mono (fun _ h => h.is) (fun _ h => h.is)).outcome

/-- C67: `cry_mpi_add_abs`; any of the three objects may coincide. -/
theorem mem_addAbs (hw : 0 < w) (hr : (s.obj r).Is w zr) (hx : (s.obj x).Shows w zx) (hy : (s.obj y).Shows w zy) :
    Outcome sp s r (addAbs (2 ^ w) r x y) (Obj.Is w (|zx| + |zy|)) (Obj.Is w zr) :=
  ((addAbs_leaf hw (V.of_is hr) hx hy).mono (fun _ h => h.is) (fun _ h => h.is)).outcome

/-- C67: `cry_mpi_sub_abs` when the minuend is not the smaller one. -/
theorem mem_subAbs (hw : 0 < w) (hr : (s.obj r).Is w zr) (hx : (s.obj x).Shows w zx) (hy : (s.obj y).Shows w zy)
    (hle : |zy| ≤ |zx|) :
    Outcome sp s r (subAbs (2 ^ w) r x y) (Obj.Is w (|zx| - |zy|)) (Obj.Is w zr) :=
  ((subAbs_leaf hw (V.of_is hr) hx hy hle).mono (fun _ h => h.is) (fun _ h => h.is)).outcome

/-- C67: `cry_mpi_sub_abs` otherwise fails and changes nothing. -/
theorem mem_subAbs_small (hx : (s.obj x).Shows w zx) (hy : (s.obj y).Shows w zy) (hlt : |zx| < |zy|) :
    subAbs (2 ^ w) r x y s = .ok (-1, s) := by
  unfold subAbs
  rw [bind_ok (cmpAbs_eval hx hy), if_pos hlt]
  rfl

/-- C67: `cry_mpi_add`; any of the three objects may coincide. -/
theorem mem_add (hw : 0 < w) (hr : (s.obj r).Is w zr) (hx : (s.obj x).Shows w zx) (hy : (s.obj y).Shows w zy) :
    Outcome sp s r (add (2 ^ w) r x y) (Obj.Is w (zx + zy)) (Obj.Is w zr) :=
  ((add_leaf hw (V.of_is hr) hx hy).mono (fun _ h => h.is) (fun _ h => h.is)).outcome

/-- C67: `cry_mpi_sub`; any of the three objects may coincide. -/
theorem mem_sub (hw : 0 < w) (hr : (s.obj r).Is w zr) (hx : (s.obj x).Shows w zx) (hy : (s.obj y).Shows w zy) :
    Outcome sp s r (sub (2 ^ w) r x y) (Obj.Is w (zx - zy)) (Obj.Is w zr) :=
  ((sub_leaf hw (V.of_is hr) hx hy).mono (fun _ h => h.is) (fun _ h => h.is)).outcome

/-- C67: `cry_mpi_shl`.  After a failure the destination may hold its old value or that of the operand; it is a
number in any case. -/
theorem mem_shl (hw : 0 < w) (hc : (s.obj c).Is w zc) (ha : (s.obj a).Shows w za) (k : Nat) (hsp : a < sp) :
    Outcome sp s c (shl w c a k) (Obj.Is w (za * 2 ^ k)) (fun o => ∃ z, o.Is w z) :=
  ((shl_leaf hw (V.of_is hc) ha k hsp).mono (fun _ h => h.is) (fun _ ⟨z, h⟩ => ⟨z, h.is⟩)).outcome

/-- C67: `cry_mpi_shr` of a number that is not negative, or a multiple of the power of two. -/
theorem mem_shr (hw : 0 < w) (hc : (s.obj c).Is w zc) (ha : (s.obj a).Shows w za) (k : Nat) (hsp : a < sp)
    (h0 : 0 ≤ za ∨ za % 2 ^ k = 0) :
    Outcome sp s c (shr w c a k) (Obj.Is w (za / 2 ^ k)) (Obj.Is w zc) :=
  ((shr_leaf hw (V.of_is hc) ha k hsp h0).mono (fun _ h => h.is) (fun _ h => h.is)).outcome

/-- C67: `cry_mpi_shr` of any number rounds towards zero; a negative number that becomes zero keeps its sign. -/
theorem mem_shr_any (hw : 0 < w) (hc : (s.obj c).Is w zc) (ha : (s.obj a).Shows w za) (k : Nat) (hsp : a < sp) :
    Outcome sp s c (shr w c a k) (Obj.IsUpToSign w (Int.tdiv za (2 ^ k))) (Obj.IsUpToSign w zc) := by
  refine ((shrR hw (V.of_is hc).r (shows_rs ha) k hsp).mono (fun o h => ?_) (fun o h => ?_)).outcome
  · obtain ⟨m, h1, h2⟩ := h
    exact ⟨m, h1.1, by rw [h1.2]; push_cast; rfl, h2.1⟩
  · obtain ⟨m, h1, h2⟩ := h
    exact ⟨m, h1.1, h1.2, h2.1⟩

/-- C67: `cry_mpi_cmp` compares the integers and changes nothing. -/
theorem mem_cmp (hx : (s.obj x).Shows w zx) (hy : (s.obj y).Shows w zy) :
    cmp x y s = .ok (if zx < zy then -1 else if zx = zy then 0 else 1, s) := cmp_eval hx hy

/-- C67: `cry_mpi_cmp_abs` compares the magnitudes and changes nothing. -/
theorem mem_cmpAbs (hx : (s.obj x).Shows w zx) (hy : (s.obj y).Shows w zy) :
    cmpAbs x y s = .ok (if |zx| < |zy| then -1 else if |zx| = |zy| then 0 else 1, s) := cmpAbs_eval hx hy

/-- C67: `cry_mpi_init` of an object that owns nothing gives zero; if the allocation fails nothing is owned and the
object may be cleared. -/
theorem mem_init (hw : 0 < w) (h : (s.obj a).owns = 0) :
    Outcome sp s a (init a) (Obj.Is w 0) (fun o => o.data = .null) :=
  ((init_run hw h).mono (fun _ h => h.is) (fun _ h => h)).outcome

/-- C67: `cry_mpi_clear` gives the array back and leaves an object owning nothing; a second call does no harm. -/
theorem mem_clear (h : (s.obj a).data = .null ∨ ∃ m, (s.obj a).Holds m) :
    ∃ s', clear a s = .ok ((), s') ∧ (∀ v, v ≠ a → s'.obj v = s.obj v) ∧ s'.live = s.live - (s.obj a).owns ∧
      (s'.obj a).owns = 0 ∧ clear a s' = .ok ((), s') := by
  obtain ⟨s1, h1, h2, h3⟩ := clear_run (sp := 0) h
  obtain ⟨s2, e, f, l, o1, o2⟩ : ∃ s', clear a s = .ok ((), s') ∧ (∀ v, v ≠ a → s'.obj v = s.obj v) ∧
      s'.live = s.live - (s.obj a).owns ∧ (s'.obj a).owns = 0 ∧ s'.obj a = Obj.cleared := by
    refine ⟨s1, h1, fun v hv => ?_, ?_, ?_, ?_⟩
    · obtain ⟨s1', h1', h2', h3'⟩ := clear_run (sp := v + 1) h
      rw [h1] at h1'; cases h1'
      exact h2'.frame v (by omega) hv
    · have := h2.live
      rw [h3] at this
      have : Obj.cleared.owns = 0 := rfl
      omega
    · rw [h3]; rfl
    · exact h3
  refine ⟨s2, e, f, l, o1, ?_⟩
  unfold clear
  rw [bind_ok (rfl : getObj a s2 = .ok (s2.obj a, s2)), o2]
  have : s2.set a Obj.cleared = s2 := by
    unfold St.set
    have : (fun p => if p = a then Obj.cleared else s2.obj p) = s2.obj := by
      funext p; split
      · rename_i h; rw [h, o2]
      · rfl
    rw [this]
  show Out.ok ((), s2.set a Obj.cleared) = _
  rw [this]

/-! ### A concrete case: `r = r + r` with one-digit objects, the second allocation failing or not -/

/-- 200 in one digit of 8 bits: the sum does not fit. -/
def exObj : Obj := ⟨some ⟨false, 1, 1⟩, .mem true [some 200]⟩
def exSt (f : Nat → Bool) : St := ⟨fun _ => exObj, f, 0, 1⟩

theorem exObj_is : exObj.Is 8 200 :=
  ⟨⟨false, [200]⟩, ⟨⟨fun d hd => by simp at hd; subst hd; decide, by simp [Mpi.TopNZ]⟩, by decide⟩, by decide,
    ⟨rfl, ⟨[], rfl⟩, Or.inr ⟨_, by decide, rfl⟩⟩⟩
theorem exObj_shows : exObj.Shows 8 200 := by
  obtain ⟨m, h1, h2, h3⟩ := exObj_is; exact ⟨m, h1, h2, h3.reads⟩

example (f : Nat → Bool) : Outcome 5 (exSt f) 0 (add (2 ^ 8) 0 0 0) (Obj.Is 8 (200 + 200)) (Obj.Is 8 200) :=
  mem_add (by decide) exObj_is exObj_shows exObj_shows

/-- Both ways out do occur. -/
example : (∃ s', add 256 0 0 0 (exSt fun _ => false) = .ok (0, s')) ∧ ∃ s', add 256 0 0 0 (exSt fun _ => true) = .ok (-1, s') :=
  ⟨⟨_, rfl⟩, ⟨_, rfl⟩⟩

/-- Writing to a number whose array does not come from the allocator (`alloc` is 0, as the library uses it for
constants) is undefined: the precondition on the destination is needed. -/
theorem mem_grow_static : grow 0 1 (⟨fun _ => ⟨some ⟨false, 1, 0⟩, .mem false [some 5]⟩, fun _ => false, 0, 0⟩) = .ub := rfl

/-- Reading an object that was never initialised is undefined. -/
theorem mem_add_fresh (f : Nat → Bool) : add 256 0 1 2 ⟨fun _ => Obj.fresh, f, 0, 0⟩ = .ub := rfl

/-- C67, where it fails: −1 shifted right by one becomes a zero with the negative sign, which `cry_mpi_cmp`
takes for less than zero. -/
theorem mem_shr_negzero :
    ∃ s1 s2, shr 8 0 0 1 ⟨fun v => if v = 0 then ⟨some ⟨true, 1, 1⟩, .mem true [some 1]⟩ else ⟨some ⟨false, 0, 0⟩, .null⟩,
        fun _ => false, 0, 1⟩ = .ok (0, s1) ∧
      (s1.obj 0).hdr = some ⟨true, 0, 1⟩ ∧ cmp 0 1 s1 = .ok (-1, s2) := ⟨_, _, rfl, rfl, rfl⟩

end Verif.Mem
