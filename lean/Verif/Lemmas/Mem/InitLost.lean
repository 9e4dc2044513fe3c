import Verif.Lemmas.Mem.EcdsaLost
/-! `cry_mpi_init_list` when one of its requests fails. -/
namespace Verif.Mem
open Verif.Mpi

/-- Clearing a list fails or leaves the objects outside of it alone. -/
theorem clearList_either : ∀ (as : List Nat) (s : St), clearList as s = .ub ∨ ∃ s', clearList as s = .ok ((), s') ∧ ∀ v, v ∉ as → s'.obj v = s.obj v
  | [], s => .inr ⟨s, rfl, fun _ _ => rfl⟩
  | a :: as, s => by
    unfold clearList
    rcases clear_cases a s with e | ⟨-, s1, e, h1⟩
    · left; rw [bind_apply, e]
    · rw [bind_ok e]
      rcases clearList_either as s1 with e2 | ⟨s2, e2, h2⟩
      · exact .inl e2
      · exact .inr ⟨s2, e2, fun v hv => by rw [h2 v fun h => hv (.tail _ h), h1 v fun h => hv (h ▸ .head _)]⟩

/-- When a request of `cry_mpi_init_list` fails, the last number of the list has no members. -/
theorem initListLoop_last {v : Nat} : ∀ (as done : List Nat) (s : St), v ∉ done → v ∉ as → (s.obj v).hdr = none → (∃ k, k ≤ as.length ∧ s.fails (s.tick + k) = true) →
    initListLoop done (as ++ [v]) s = .ub ∨ ∃ st s', initListLoop done (as ++ [v]) s = .ok (st, s') ∧ (s'.obj v).hdr = none := by
  have stop : ∀ (a : Nat) (as done : List Nat) (s : St), v ∉ done → (s.obj v).hdr = none → s.fails s.tick = true →
      initListLoop done (a :: as) s = .ub ∨ ∃ st s', initListLoop done (a :: as) s = .ok (st, s') ∧ (s'.obj v).hdr = none := by
    intro a as done s hd hv hf
    have hr : request 1 s = .ok (false, { s with tick := s.tick + 1 }) := if_pos hf
    have e1 : init a s = .ok (-1, St.set { s with tick := s.tick + 1 } a { s.obj a with data := .null }) := by
      unfold init
      rw [bind_ok hr]; rfl
    have h1 : ((St.set { s with tick := s.tick + 1 } a { s.obj a with data := .null }).obj v).hdr = none := by
      show (if v = a then { s.obj a with data := .null } else s.obj v).hdr = none
      split
      · next h => subst h; exact hv
      · exact hv
    unfold initListLoop
    rw [bind_ok e1, if_neg (by decide)]
    rcases clearList_either done (St.set { s with tick := s.tick + 1 } a { s.obj a with data := .null }) with e2 | ⟨s2, e2, h2⟩
    · left; rw [bind_apply, e2]
    · right
      rw [bind_ok e2]
      exact ⟨_, s2, rfl, by rw [h2 v hd]; exact h1⟩
  intro as
  induction as with
  | nil =>
    intro done s hd _ hv ⟨k, hk, hf⟩
    obtain rfl : k = 0 := by simpa using hk
    exact stop v [] done s hd hv hf
  | cons a as ih =>
    intro done s hd ha hv ⟨k, hk, hf⟩
    cases h0 : s.fails s.tick with
    | true => exact stop a (as ++ [v]) done s hd hv h0
    | false =>
      have hr : request 1 s = .ok (true, { s with tick := s.tick + 1, live := s.live + 1 }) := if_neg (by rw [h0]; simp)
      have e1 : init a s = .ok (0, St.set { s with tick := s.tick + 1, live := s.live + 1 } a ⟨some ⟨false, 0, quantum⟩, .mem true (List.replicate quantum none)⟩) := by
        unfold init
        rw [bind_ok hr]; rfl
      have hva : v ≠ a := fun h => ha (h ▸ .head _)
      rw [List.cons_append]
      unfold initListLoop
      rw [bind_ok e1, if_pos rfl]
      refine ih (done ++ [a]) _ (by simp [hd, hva]) (fun h => ha (.tail _ h)) ?_ ?_
      · show (if v = a then _ else s.obj v).hdr = none
        rw [if_neg hva]; exact hv
      · cases k with
        | zero => rw [Nat.add_zero, h0] at hf; cases hf
        | succ k => exact ⟨k, by simpa using hk, by show s.fails (s.tick + 1 + k) = true; rw [show s.tick + 1 + k = s.tick + (k + 1) by omega]; exact hf⟩

/-- `cry_mpi_init_list` reports success only if all its requests succeed. -/
theorem initListLoop_all : ∀ (as done : List Nat) (s s' : St), initListLoop done as s = .ok (0, s') → ∀ k, k < as.length → s.fails (s.tick + k) = false
  | [], _, _, _, _, k, hk => absurd hk (by simp)
  | a :: as, done, s, s', h, k, hk => by
    cases h0 : s.fails s.tick with
    | true =>
      obtain ⟨s1, e1⟩ := init_no a h0
      unfold initListLoop at h
      rw [bind_ok e1, if_neg (by decide)] at h
      rcases clearList_either done s1 with e2 | ⟨s2, e2, -⟩
      · rw [bind_apply, e2] at h; cases h
      · rw [bind_ok e2] at h; cases h
    | false =>
      obtain ⟨s1, e1, f1, t1⟩ := init_ok a h0
      unfold initListLoop at h
      rw [bind_ok e1, if_pos rfl] at h
      cases k with
      | zero => exact h0
      | succ k =>
        have := initListLoop_all as (done ++ [a]) s1 s' h k (by simpa using hk)
        rw [f1, t1] at this
        rw [show s.tick + (k + 1) = s.tick + 1 + k by omega]; exact this

/-- `cry_mpi_init_list` on all locals, when one of its requests fails. -/
theorem initList_lost {w sp N : Nat} {K : Ctx} {A : Env} {s : St} (hw : 0 < w) {as : List Nat} (h : At K (Locals sp A (· = Obj.fresh)) (sp + N) s)
    (has : ∀ v, v ∈ as ↔ sp ≤ v ∧ v < sp + N) (hn : as.Nodup) (hf : ∃ k, k < as.length ∧ s.fails (s.tick + k) = true) :
    ∃ s', initList as s = .ok (-1, s') ∧ At K A sp s' := by
  obtain ⟨st, s', e, h'⟩ := initListLoop_at (w := w) hw as [] s (E := Locals sp A (· = Obj.fresh))
    (h.le fun v _ o ho => by unfold Sets; rw [if_neg (by simp)]; exact ho)
    (by intro a ha; exact ((has a).1 (by simpa using ha)).2) (by simpa using hn) (by
      intro a ha o ho
      rw [Locals.hi ((has a).1 ha).1] at ho
      rw [ho]; rfl)
  rcases h' with ⟨rfl, -⟩ | ⟨rfl, -, h'⟩
  · obtain ⟨k, hk, hf⟩ := hf
    rw [initListLoop_all _ _ _ _ e k hk] at hf; cases hf
  refine ⟨s', e, (exit_at h' fun v h1 h2 o ho => ?_).le fun v hv o ho => ?_⟩
  · unfold Sets at ho
    rw [if_pos (by rw [List.nil_append, has]; omega)] at ho; exact ho
  · unfold Sets at ho
    rwa [if_neg (by rw [List.nil_append, has]; omega), Locals.lo hv] at ho

end Verif.Mem
