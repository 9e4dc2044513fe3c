import Verif.Lemmas.Mem.Sqr
import Verif.Props.Mem.Basic
/-!
# C68: multiplication and squaring of numbers in memory

All branches (columns, Karatsuba, Toom-3) with their temporaries: whatever objects coincide and whichever
allocation requests fail, no undefined behaviour, the right product or a reported failure, no leak.
-/
namespace Verif.Mem
open Verif.Mpi (Mpi Norm WF)

variable {w sp r x y d : Nat} {s : St} {zr zx zy : Int}

/-- C68: `cry_mpi_mul` of numbers of any size; any of the three objects may coincide. -/
theorem mem_mul (hw : 8 ≤ w) (hr : (s.obj r).Is w zr) (hx : (s.obj x).Shows w zx) (hy : (s.obj y).Shows w zy)
    (hrs : r < sp) (hxs : x < sp) (hys : y < sp) :
    Outcome sp s r (mul w sp r x y) (Obj.Is w (zx * zy)) (fun o => ∃ z, o.IsUpToSign w z) :=
  ((mul_leaf hw (V.of_is hr).r (shows_rs hx) (shows_rs hy) hrs hxs hys (Or.inl rfl)).mono (fun _ h => h.is)
    (fun _ ⟨z, m, h1, h2⟩ => ⟨z, m, h1.1, h1.2, h2.1⟩)).outcome

/-- C68: `cry_mpi_mul_dig`, the destination not holding a negative number before. -/
theorem mem_mulDig (hw : 8 ≤ w) (hr : (s.obj r).Is w zr) (hx : (s.obj x).Shows w zx) (hd : d < 2 ^ w)
    (hrs : r < sp) (hxs : x < sp) (h0 : 0 ≤ zr ∨ (zx ≠ 0 ∧ d ≠ 0)) :
    Outcome sp s r (mulDig w sp r x d) (Obj.Is w (zx * d)) (fun o => ∃ z, o.IsUpToSign w z) := by
  obtain ⟨mr, r1, r2, r3⟩ := hr
  refine ((mulDig_leaf hw ⟨r1.toNorm, r2⟩ ⟨r3, Nat.zero_le _⟩ (shows_rs hx) hd hrs hxs (Or.inl fun _ _ => Nat.zero_le _)).mono (fun o h => ?_)
    (fun _ ⟨z, m, h1, h2⟩ => ⟨z, m, h1.1, h1.2, h2.1⟩)).outcome
  rcases h0 with h0 | ⟨h0, h1⟩
  · exact (h.2 (by rw [← Bool.not_eq_true, Mpi.neg_iff_of_wf r1, r2]; omega)).is
  · obtain ⟨m, m1, m2⟩ := h.1
    refine ⟨m, ⟨m1.1, fun h => ?_⟩, m1.2, m2.1⟩
    have := m1.2
    rw [(Mpi.toInt_eq_zero_iff (Nat.two_pow_pos w) m1.1).2 h] at this
    rcases mul_eq_zero.1 this.symm with h | h
    · exact absurd h h0
    · exact absurd (by exact_mod_cast h) h1

/-- C68: `cry_mpi_mul_dig` for any destination: a zero product may carry the sign the destination had. -/
theorem mem_mulDig_any (hw : 8 ≤ w) (hr : (s.obj r).Is w zr) (hx : (s.obj x).Shows w zx) (hd : d < 2 ^ w)
    (hrs : r < sp) (hxs : x < sp) :
    Outcome sp s r (mulDig w sp r x d) (Obj.IsUpToSign w (zx * d)) (fun o => ∃ z, o.IsUpToSign w z) := by
  obtain ⟨mr, r1, r2, r3⟩ := hr
  exact ((mulDig_leaf hw ⟨r1.toNorm, r2⟩ ⟨r3, Nat.zero_le _⟩ (shows_rs hx) hd hrs hxs (Or.inl fun _ _ => Nat.zero_le _)).mono
    (fun o ⟨⟨m, m1, m2⟩, _⟩ => ⟨m, m1.1, m1.2, m2.1⟩) (fun _ ⟨z, m, h1, h2⟩ => ⟨z, m, h1.1, h1.2, h2.1⟩)).outcome

/-- C68: `cry_mpi_sqr`, in place or with a destination not holding a negative number before. -/
theorem mem_sqr_partial (hw : 8 ≤ w) (hr : (s.obj r).Is w zr) (hx : (s.obj x).Shows w zx)
    (hrs : r < sp) (hxs : x < sp) (h0 : r = x ∨ 0 ≤ zr) :
    Outcome sp s r (sqr w sp r x) (Obj.Is w (zx * zx)) (fun o => ∃ z, o.IsUpToSign w z) := by
  obtain ⟨mr, r1, r2, r3⟩ := hr
  refine ((sqr_leaf hw ⟨r1.toNorm, r2⟩ ⟨r3, Nat.zero_le _⟩ (shows_rs hx) hrs hxs (Or.inl rfl)).mono (fun o h => ?_)
    (fun _ ⟨z, m, h1, h2⟩ => ⟨z, m, h1.1, h1.2, h2.1⟩)).outcome
  rw [show (if r = x then false else mr.neg) = false from ?_] at h
  · exact h.v.is
  · rcases h0 with h0 | h0
    · rw [if_pos h0]
    · rw [show mr.neg = false by rw [← Bool.not_eq_true, Mpi.neg_iff_of_wf r1, r2]; omega, ite_self]

/-- C68: `cry_mpi_sqr` for any destination gives the square or, if the destination was negative before, possibly
its negation. -/
theorem mem_sqr_any (hw : 8 ≤ w) (hr : (s.obj r).Is w zr) (hx : (s.obj x).Shows w zx) (hrs : r < sp) (hxs : x < sp) :
    Outcome sp s r (sqr w sp r x) (fun o => o.Is w (zx * zx) ∨ (zr < 0 ∧ o.Is w (-(zx * zx)))) (fun o => ∃ z, o.IsUpToSign w z) := by
  obtain ⟨mr, r1, r2, r3⟩ := hr
  refine ((sqr_leaf hw ⟨r1.toNorm, r2⟩ ⟨r3, Nat.zero_le _⟩ (shows_rs hx) hrs hxs (Or.inl rfl)).mono (fun o h => ?_)
    (fun _ ⟨z, m, h1, h2⟩ => ⟨z, m, h1.1, h1.2, h2.1⟩)).outcome
  obtain ⟨m, m1, m2, m3, m4, m5⟩ := h
  have hz : ((zx.natAbs * zx.natAbs : Nat) : Int) = zx * zx := by push_cast; exact abs_mul_abs_self zx
  cases hm : m.neg with
  | false => exact Or.inl ⟨m, ⟨m1, m4⟩, by rw [Mpi.toInt_false hm, m2, hz], m5.1⟩
  | true =>
    refine Or.inr ⟨?_, m, ⟨m1, m4⟩, by rw [← hz, ← m2]; unfold Mpi.Mpi.toInt; rw [hm]; rfl, m5.1⟩
    have := m3 hm
    split_ifs at this
    rw [Mpi.neg_iff_of_wf r1, r2] at this
    exact this

/-! ### Concrete cases: `r = r·r` with one-digit objects, allocations failing or not -/

example (f : Nat → Bool) : Outcome 5 (exSt f) 0 (mul 8 5 0 0 0) (Obj.Is 8 (200 * 200)) (fun o => ∃ z, o.IsUpToSign 8 z) :=
  mem_mul (by decide) exObj_is exObj_shows exObj_shows (by decide) (by decide) (by decide)
example (f : Nat → Bool) : Outcome 5 (exSt f) 0 (sqr 8 5 0 0) (Obj.Is 8 (200 * 200)) (fun o => ∃ z, o.IsUpToSign 8 z) :=
  mem_sqr_partial (by decide) exObj_is exObj_shows (by decide) (by decide) (Or.inl rfl)
example (f : Nat → Bool) : Outcome 5 (exSt f) 0 (mulDig 8 5 0 1 7) (Obj.Is 8 (200 * 7)) (fun o => ∃ z, o.IsUpToSign 8 z) :=
  mem_mulDig (d := 7) (by decide) exObj_is exObj_shows (by decide) (by decide) (by decide) (Or.inl (by decide))

/-- Both ways out do occur, with the temporary of an in-place product given back in either case. -/
example : (∃ s', mul 8 5 0 0 0 (exSt fun _ => false) = .ok (0, s') ∧ s'.live = 1 ∧ (s'.obj 0).hdr = some ⟨false, 2, 2⟩) ∧
    ∃ s', mul 8 5 0 0 0 (exSt fun _ => true) = .ok (-1, s') ∧ s'.live = 1 :=
  ⟨⟨_, rfl, rfl, rfl⟩, ⟨_, rfl, rfl⟩⟩

/-- C68, where it fails: 3 squared into a number that was −1 before is −9. -/
theorem mem_sqr_negative :
    ∃ s', sqr 8 5 0 1 ⟨fun v => if v = 0 then ⟨some ⟨true, 1, 1⟩, .mem true [some 1]⟩ else ⟨some ⟨false, 1, 1⟩, .mem true [some 3]⟩,
        fun _ => false, 0, 2⟩ = .ok (0, s') ∧
      (s'.obj 0).hdr = some ⟨true, 1, 16⟩ ∧ (s'.obj 0).cells[0]? = some (some 9) := ⟨_, rfl, rfl, rfl⟩

end Verif.Mem
