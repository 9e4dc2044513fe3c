import Verif.Model.ListInit
import Mathlib.Data.List.Nodup
/-! Lemmas about list initialisation. -/
namespace Verif.ListInit

/-- Exactly the objects `D` hold blocks allocated since `m0`, each its own; older blocks are as in
`m0`. -/
structure Inv (m0 : Mem) (D : List Nat) (m : Mem) : Prop where
  le : m0.next ≤ m.next
  old : ∀ b < m0.next, m.live b = m0.live b
  fresh : ∀ b, m.next ≤ b → m.live b = false
  holds : ∀ o ∈ D, ∃ b, m.data o = some b ∧ m0.next ≤ b ∧ b < m.next ∧ m.live b = true
  inj : ∀ o ∈ D, ∀ o' ∈ D, m.data o = m.data o' → o = o'
  only : ∀ b, m0.next ≤ b → m.live b = true → ∃ o ∈ D, m.data o = some b

structure InitOK (m0 : Mem) {α : Type} (fields : α → List Nat)
    (init : α → Mem → Option (Bool × Mem)) : Prop where
  run : ∀ (o : α) (D : List Nat) (m : Mem), Inv m0 D m → (fields o ++ D).Nodup →
    ∃ ok m', init o m = some (ok, m') ∧
      (ok = true → Inv m0 (fields o ++ D) m') ∧ (ok = false → Inv m0 D m')

structure ClearOK (m0 : Mem) {α : Type} (fields : α → List Nat)
    (clear : α → Mem → Option Mem) : Prop where
  run : ∀ (o : α) (D : List Nat) (m : Mem), Inv m0 (fields o ++ D) m → (fields o ++ D).Nodup →
    ∃ m', clear o m = some m' ∧ Inv m0 D m'

theorem Inv.perm {m0 : Mem} {D D' : List Nat} {m : Mem} (h : Inv m0 D m)
    (hp : ∀ o, o ∈ D ↔ o ∈ D') : Inv m0 D' m where
  le := h.le
  old := h.old
  fresh := h.fresh
  holds o ho := h.holds o ((hp o).2 ho)
  inj o ho o' ho' := h.inj o ((hp o).2 ho) o' ((hp o').2 ho')
  only b h1 h2 := by
    obtain ⟨o, ho, e⟩ := h.only b h1 h2
    exact ⟨o, (hp o).1 ho, e⟩

theorem mpiInit_ok (m0 : Mem) (fails : Nat → Bool) :
    InitOK m0 (fun o => [o]) (mpiInit fails) where
  run o D m h hnd := by
    have hnd' : o ∉ D := by simpa using (List.nodup_cons.1 hnd).1
    unfold mpiInit
    split
    · refine ⟨_, _, rfl, fun h => by simp at h, fun _ => ⟨h.le, h.old, h.fresh, ?_, ?_, ?_⟩⟩
      · intro o' ho'
        have : o' ≠ o := fun e => hnd' (e ▸ ho')
        simpa [this] using h.holds o' ho'
      · intro p hp q hq
        have h1 : p ≠ o := fun e => hnd' (e ▸ hp)
        have h2 : q ≠ o := fun e => hnd' (e ▸ hq)
        simpa [h1, h2] using h.inj p hp q hq
      · intro b h1 h2
        obtain ⟨p, hp, e⟩ := h.only b h1 h2
        have h3 : p ≠ o := fun e => hnd' (e ▸ hp)
        exact ⟨p, hp, by simpa [h3] using e⟩
    · refine ⟨_, _, rfl, fun _ => ⟨?_, ?_, ?_, ?_, ?_, ?_⟩, fun h => by simp at h⟩
      · have := h.le; dsimp only; omega
      · intro b hb
        have := h.le
        have hne : b ≠ m.next := by omega
        simpa [hne] using h.old b hb
      · intro b hb
        dsimp only at hb
        have hne : b ≠ m.next := by omega
        simpa [hne] using h.fresh b (by omega)
      · intro p hp
        rcases List.mem_cons.1 hp with rfl | hp
        · have := h.le
          exact ⟨m.next, by simp, by omega, by dsimp only; omega, by simp⟩
        · have h1 : p ≠ o := fun e => hnd' (e ▸ hp)
          obtain ⟨b, b1, b2, b3, b4⟩ := h.holds p hp
          exact ⟨b, by simpa [h1] using b1, b2, by dsimp only; omega, by simp [b4]⟩
      · have key : ∀ q ∈ D, m.data q ≠ some m.next := by
          intro q hq e
          obtain ⟨b, b1, b2, b3, b4⟩ := h.holds q hq
          rw [e] at b1
          have := Option.some.inj b1
          omega
        intro p hp q hq
        dsimp only
        have hp' : p = o ∨ p ∈ D := by simpa using hp
        have hq' : q = o ∨ q ∈ D := by simpa using hq
        by_cases c1 : p = o <;> by_cases c2 : q = o
        · intro _; rw [c1, c2]
        · rw [if_pos c1, if_neg c2]
          exact fun e => absurd e.symm (key q (hq'.resolve_left c2))
        · rw [if_neg c1, if_pos c2]
          exact fun e => absurd e (key p (hp'.resolve_left c1))
        · rw [if_neg c1, if_neg c2]
          exact h.inj p (hp'.resolve_left c1) q (hq'.resolve_left c2)
      · intro b h1 h2
        dsimp only at h2 ⊢
        by_cases hb : b = m.next
        · exact ⟨o, by simp, by simp [hb]⟩
        · rw [if_neg hb] at h2
          obtain ⟨p, hp, e⟩ := h.only b h1 h2
          have h3 : p ≠ o := fun e => hnd' (e ▸ hp)
          exact ⟨p, by simp [hp], by simpa [h3] using e⟩

theorem mpiClear_ok (m0 : Mem) : ClearOK m0 (fun o => [o]) mpiClear where
  run o D m h hnd := by
    have hnd' : o ∉ D := by simpa using (List.nodup_cons.1 hnd).1
    obtain ⟨b, b1, b2, b3, b4⟩ := h.holds o (by simp)
    unfold mpiClear
    rw [b1]
    dsimp only
    rw [if_pos b4]
    refine ⟨_, rfl, ⟨h.le, ?_, ?_, ?_, ?_, ?_⟩⟩
    · intro c hc
      have : c ≠ b := by omega
      simpa [this] using h.old c hc
    · intro c hc
      dsimp only at hc ⊢
      split
      · rfl
      · exact h.fresh c hc
    · intro p hp
      have h1 : p ≠ o := fun e => hnd' (e ▸ hp)
      obtain ⟨c, c1, c2, c3, c4⟩ := h.holds p (by simp [hp])
      have hcb : c ≠ b := by
        rintro rfl
        exact h1 (h.inj p (by simp [hp]) o (by simp) (by rw [c1, b1]))
      exact ⟨c, by simpa [h1] using c1, c2, c3, by simpa [hcb] using c4⟩
    · intro p hp q hq
      have h1 : p ≠ o := fun e => hnd' (e ▸ hp)
      have h2 : q ≠ o := fun e => hnd' (e ▸ hq)
      simpa [h1, h2] using h.inj p (by simp [hp]) q (by simp [hq])
    · intro c h1 h2
      dsimp only at h2 ⊢
      by_cases hc : c = b
      · rw [if_pos hc] at h2; cases h2
      · rw [if_neg hc] at h2
        obtain ⟨p, hp, e⟩ := h.only c h1 h2
        rcases List.mem_cons.1 hp with rfl | hp
        · rw [b1] at e
          exact absurd (Option.some.inj e).symm hc
        · have h3 : p ≠ o := fun e => hnd' (e ▸ hp)
          exact ⟨p, hp, by rw [if_neg h3]; exact e⟩

theorem clearN_ok {m0 : Mem} {α : Type} {fields : α → List Nat} {clear : α → Mem → Option Mem}
    (hc : ClearOK m0 fields clear) : ∀ (done rest : List α) (D : List Nat) (m : Mem),
    Inv m0 (done.flatMap fields ++ D) m → (done.flatMap fields ++ D).Nodup →
    ∃ m', clearN clear done.length (done ++ rest) m = some m' ∧ Inv m0 D m'
  | [], rest, D, m, h, _ => ⟨m, by simp [clearN], by simpa using h⟩
  | o :: done, rest, D, m, h, hnd => by
    rw [List.flatMap_cons, List.append_assoc] at h hnd
    obtain ⟨m1, e1, h1⟩ := hc.run o _ m h hnd
    obtain ⟨m2, e2, h2⟩ := clearN_ok hc done rest D m1 h1 (List.nodup_append.1 hnd).2.1
    refine ⟨m2, ?_, h2⟩
    rw [List.length_cons, List.cons_append, clearN, e1]
    exact e2

theorem initLoop_ok {m0 : Mem} {α : Type} {fields : α → List Nat}
    {init : α → Mem → Option (Bool × Mem)} {clear : α → Mem → Option Mem}
    (hi : InitOK m0 fields init) (hc : ClearOK m0 fields clear) :
    ∀ (rest done : List α) (D : List Nat) (m : Mem),
    Inv m0 (done.flatMap fields ++ D) m → ((done ++ rest).flatMap fields ++ D).Nodup →
    ∃ ok m', initLoop init clear (done ++ rest) rest done.length m = some (ok, m') ∧
      (ok = true → Inv m0 ((done ++ rest).flatMap fields ++ D) m') ∧ (ok = false → Inv m0 D m')
  | [], done, D, m, h, _ => ⟨true, m, by simp [initLoop], fun _ => by simpa using h, by simp⟩
  | o :: rest, done, D, m, h, hnd => by
    have hnd2 : (fields o ++ (done.flatMap fields ++ D)).Nodup := by
      rw [List.flatMap_append, List.flatMap_cons] at hnd
      have hp : (fields o ++ (done.flatMap fields ++ D)).Sublist
          (fields o ++ (done.flatMap fields ++ (rest.flatMap fields ++ D))) :=
        List.Sublist.append_left (List.Sublist.append_left (List.sublist_append_right _ _) _) _
      refine List.Nodup.sublist hp (List.Perm.nodup ?_ hnd)
      simp only [List.append_assoc]
      exact List.perm_append_comm_assoc _ _ _
    obtain ⟨ok, m1, e1, h1, h2⟩ := hi.run o _ m h hnd2
    rw [initLoop, e1]
    cases ok with
    | true =>
      have hlen : done.length + 1 = (done ++ [o]).length := by simp
      have happ : done ++ o :: rest = (done ++ [o]) ++ rest := by simp
      simp only [Option.bind_eq_bind, Option.bind_some, if_true]
      rw [hlen, happ]
      refine initLoop_ok hi hc rest (done ++ [o]) D m1 ((h1 rfl).perm ?_) (by rw [← happ]; exact hnd)
      intro x
      simp only [List.mem_append, List.flatMap_append, List.flatMap_cons, List.flatMap_nil,
        List.append_nil]
      tauto
    | false =>
      obtain ⟨m2, e2, h3⟩ := clearN_ok hc done (o :: rest) D m1 (h2 rfl) (List.nodup_append.1 hnd2).2.1
      simp only [Option.bind_eq_bind, Option.bind_some, Bool.false_eq_true, if_false, e2]
      exact ⟨false, m2, rfl, by simp, fun _ => h3⟩

/-- `cry_list_init` inherits the contract of the element functions. -/
theorem listInit_ok {m0 : Mem} {α : Type} {fields : α → List Nat}
    {init : α → Mem → Option (Bool × Mem)} {clear : α → Mem → Option Mem}
    (hi : InitOK m0 fields init) (hc : ClearOK m0 fields clear) :
    InitOK m0 (fun os : List α => os.flatMap fields) (listInit init clear) where
  run os D m h hnd := initLoop_ok hi hc os [] D m (by simpa using h) hnd

theorem listClear_ok {m0 : Mem} {α : Type} {fields : α → List Nat} {clear : α → Mem → Option Mem}
    (hc : ClearOK m0 fields clear) :
    ClearOK m0 (fun os : List α => os.flatMap fields) (listClear clear) where
  run os := by
    induction os with
    | nil => exact fun D m h _ => ⟨m, rfl, by simpa using h⟩
    | cons o os ih =>
      intro D m h hnd
      rw [List.flatMap_cons, List.append_assoc] at h hnd
      obtain ⟨m1, e1, h1⟩ := hc.run o _ m h hnd
      obtain ⟨m2, e2, h2⟩ := ih D m1 h1 (List.nodup_append.1 hnd).2.1
      refine ⟨m2, ?_, h2⟩
      rw [listClear, e1]
      exact e2

def Ecp.fields (p : Ecp) : List Nat := [p.x, p.y, p.z]

theorem ecpInit_ok (m0 : Mem) (fails : Nat → Bool) : InitOK m0 Ecp.fields (ecpInit fails) where
  run p D m h hnd := by
    have := (listInit_ok (mpiInit_ok m0 fails) (mpiClear_ok m0)).run [p.x, p.y, p.z] D m h
      (by simpa [Ecp.fields] using hnd)
    simpa [Ecp.fields, ecpInit, mpiInitList] using this

theorem ecpClear_ok (m0 : Mem) : ClearOK m0 Ecp.fields ecpClear where
  run p D m h hnd := by
    have := (listClear_ok (mpiClear_ok m0)).run [p.x, p.y, p.z] D m (by simpa [Ecp.fields] using h)
      (by simpa [Ecp.fields] using hnd)
    simpa [Ecp.fields, ecpClear, mpiClearList] using this

end Verif.ListInit
