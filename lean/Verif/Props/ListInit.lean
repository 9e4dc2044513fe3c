import Verif.Lemmas.ListInit
/-!
# C20: list initialisation is all-or-nothing
-/
namespace Verif.ListInit

/-- A heap in which no block beyond `next` is live. -/
def Mem.OK (m : Mem) : Prop := ∀ b, m.next ≤ b → m.live b = false

theorem Inv.refl {m : Mem} (h : m.OK) : Inv m [] m :=
  ⟨Nat.le_refl _, fun _ _ => rfl, h, by simp, by simp, fun b h1 h2 => by rw [h b h1] at h2; cases h2⟩

/-- Outcome of an all-or-nothing initialisation of the objects `objs`: either success and every object
holds its own new live block and nothing else is allocated, or failure and the set of live blocks is
exactly the one before the call. -/
def AllOrNothing (m0 : Mem) (objs : List Nat) (ok : Bool) (m : Mem) : Prop :=
  (ok = true ∧ (∀ o ∈ objs, ∃ b, m.data o = some b ∧ m.live b = true ∧ m0.live b = false) ∧
    (∀ o ∈ objs, ∀ o' ∈ objs, m.data o = m.data o' → o = o') ∧
    (∀ b, m.live b = true → m0.live b = true ∨ ∃ o ∈ objs, m.data o = some b) ∧
    (∀ b, m0.live b = true → m.live b = true)) ∨
  (ok = false ∧ ∀ b, m.live b = m0.live b)

theorem allOrNothing_of {m0 m : Mem} {objs : List Nat} {ok : Bool} (h0 : m0.OK)
    (h1 : ok = true → Inv m0 (objs ++ []) m) (h2 : ok = false → Inv m0 [] m) :
    AllOrNothing m0 objs ok m := by
  cases ok with
  | true =>
    have h := h1 rfl
    rw [List.append_nil] at h
    refine .inl ⟨rfl, ?_, h.inj, ?_, ?_⟩
    · intro o ho
      obtain ⟨b, b1, b2, b3, b4⟩ := h.holds o ho
      exact ⟨b, b1, b4, h0 b b2⟩
    · intro b hb
      by_cases hlt : b < m0.next
      · left; rw [← h.old b hlt]; exact hb
      · right; exact h.only b (by omega) hb
    · intro b hb
      by_cases hlt : b < m0.next
      · rw [h.old b hlt]; exact hb
      · rw [h0 b (by omega)] at hb; cases hb
  | false =>
    have h := h2 rfl
    refine .inr ⟨rfl, fun b => ?_⟩
    by_cases hlt : b < m0.next
    · exact h.old b hlt
    · rw [h0 b (by omega)]
      cases hb : m.live b with
      | false => rfl
      | true =>
        obtain ⟨o, ho, -⟩ := h.only b (by omega) hb
        simp at ho

/-- C20, big integers: no undefined behaviour and all-or-nothing, for every list of distinct objects and
every pattern of allocation failures. -/
theorem mpiInitList_all_or_nothing (fails : Nat → Bool) (objs : List Nat) (hnd : objs.Nodup) (m : Mem)
    (hm : m.OK) : ∃ ok m', mpiInitList fails objs m = some (ok, m') ∧ AllOrNothing m objs ok m' := by
  obtain ⟨ok, m', e, h1, h2⟩ := (listInit_ok (mpiInit_ok m fails) (mpiClear_ok m)).run objs [] m
    (Inv.refl hm) (by simpa using hnd)
  exact ⟨ok, m', e, allOrNothing_of hm (by simpa using h1) h2⟩

/-- C20, points: the same for lists of point objects, each made of three distinct integers. -/
theorem ecpInitList_all_or_nothing (fails : Nat → Bool) (objs : List Ecp)
    (hnd : (objs.flatMap Ecp.fields).Nodup) (m : Mem) (hm : m.OK) :
    ∃ ok m', ecpInitList fails objs m = some (ok, m') ∧
      AllOrNothing m (objs.flatMap Ecp.fields) ok m' := by
  obtain ⟨ok, m', e, h1, h2⟩ := (listInit_ok (ecpInit_ok m fails) (ecpClear_ok m)).run objs [] m
    (Inv.refl hm) (by simpa using hnd)
  exact ⟨ok, m', e, allOrNothing_of hm (by simpa using h1) h2⟩

/-- The call succeeds exactly when no `malloc` call it makes fails. -/
theorem mpiInitList_success_iff (fails : Nat → Bool) (objs : List Nat) (m : Mem) (ok : Bool) (m' : Mem)
    (h : mpiInitList fails objs m = some (ok, m')) :
    ok = true ↔ ∀ k < objs.length, fails (m.calls + k) = false := by
  unfold mpiInitList listInit at h
  have key : ∀ (rest : List Nat) (n : Nat) (m : Mem),
      initLoop (mpiInit fails) mpiClear objs rest n m = some (ok, m') →
      (ok = true ↔ ∀ k < rest.length, fails (m.calls + k) = false) := by
    intro rest
    induction rest with
    | nil => intro n m h; simp [initLoop] at h; simp [h.1]
    | cons o rest ih =>
      intro n m h
      rw [initLoop] at h
      unfold mpiInit at h
      cases hf : fails m.calls with
      | true =>
        simp only [hf, if_true, Option.bind_eq_bind, Option.bind_some, Bool.false_eq_true,
          if_false] at h
        have hok : ok = false := by
          cases hc : clearN mpiClear n objs { m with
              data := fun k => if k = o then none else m.data k, calls := m.calls + 1 } with
          | none => rw [hc] at h; simp at h
          | some x => rw [hc] at h; simp at h; exact h.1
        simp only [hok, Bool.false_eq_true, false_iff, not_forall]
        exact ⟨0, by simp, by simp [hf]⟩
      | false =>
        simp only [hf, Bool.false_eq_true, if_false, Option.bind_eq_bind, Option.bind_some,
          if_true] at h
        rw [ih _ _ h]
        dsimp only
        constructor
        · intro hk k hlt
          cases k with
          | zero => simpa using hf
          | succ k =>
            have := hk k (by simpa using hlt)
            rwa [Nat.add_assoc, Nat.add_comm 1 k] at this
        · intro hk k hlt
          have := hk (k + 1) (by simpa using hlt)
          rwa [Nat.add_assoc, Nat.add_comm 1 k]
  exact key objs 0 m h

/-- Three objects with garbage contents, the third allocation fails. -/
example : ∃ m', mpiInitList (fun n => n == 2) [10, 11, 12]
    ⟨fun _ => some 77, fun b => b == 3, 4, 0⟩ = some (false, m') ∧ m'.live 4 = false ∧
    m'.live 5 = false ∧ m'.live 3 = true := ⟨_, rfl, by decide, by decide, by decide⟩

example : Mem.OK ⟨fun _ => some 77, fun b => b == 3, 4, 0⟩ := by
  intro b hb; simp at hb ⊢; omega

end Verif.ListInit
