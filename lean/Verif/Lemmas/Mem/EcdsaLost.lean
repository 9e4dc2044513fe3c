import Verif.Lemmas.Mem.Ecdsa
import Verif.Lemmas.Mem.Shy
/-! ECDSA and ECDH in memory when an allocation fails. -/
namespace Verif.Mem
open Verif.Mpi

variable {w : Nat} {K : Ctx} {A : Env} {sp N : Nat} {s : St} {L : List Int}

/-- Clearing fails on memory that was never written, or leaves all other objects alone. -/
theorem clear_cases (a : Nat) (s : St) : clear a s = .ub ∨ ((s.obj a).data ≠ .indet ∧ ∃ s', clear a s = .ok ((), s') ∧ ∀ v, v ≠ a → s'.obj v = s.obj v) := by
  have hset : ∀ (s : St) (o : Obj), ∃ s', setObj a o s = .ok ((), s') ∧ ∀ v, v ≠ a → s'.obj v = s.obj v :=
    fun s o => ⟨_, rfl, fun v hv => by show (if v = a then o else s.obj v) = _; rw [if_neg hv]⟩
  have e0 : getObj a s = .ok (s.obj a, s) := rfl
  unfold clear
  rw [bind_ok e0]
  cases hd : (s.obj a).data with
  | indet => left; rfl
  | null =>
    right
    exact ⟨by simp, hset s _⟩
  | mem heap c =>
    dsimp only
    cases hh : (s.obj a).hdr with
    | none =>
      left
      have : hdr a s = .ub := by unfold hdr; rw [bind_ok e0, hh]; rfl
      rw [bind_apply, this]
    | some h =>
      rw [bind_ok (hdr_ok hh)]
      by_cases hal : h.alloc ≠ 0
      · rw [if_pos hal]
        cases heap
        · left; rfl
        · right
          obtain ⟨s', e, h'⟩ := hset { s with live := s.live - 1 } ⟨some ⟨false, 0, 0⟩, .null⟩
          exact ⟨by simp, s', e, h'⟩
      · rw [if_neg hal]
        right
        obtain ⟨s', e, h'⟩ := hset s ⟨some ⟨false, 0, 0⟩, .null⟩
        exact ⟨by simp, s', e, h'⟩

/-- A list of which one object was never initialised cannot be cleared. -/
theorem clearList_ub {v : Nat} : ∀ (as : List Nat) (s : St), v ∈ as → (s.obj v).data = .indet → clearList as s = .ub
  | [], _, h, _ => by simp at h
  | a :: as, s, h, hv => by
    unfold clearList
    rcases clear_cases a s with e | ⟨h1, s', e, h2⟩
    · rw [bind_apply, e]
    · have hva : v ≠ a := by rintro rfl; exact h1 hv
      rw [bind_ok e]
      exact clearList_ub as s' ((List.mem_cons.1 h).resolve_left hva) (by rw [h2 v hva]; exact hv)

/-- `cry_ecp_init` when its first request fails: nothing but the first coordinate is touched. -/
theorem ecpInit_no (w q : Nat) (hf : s.fails s.tick = true) : ∃ s', ecpInit w q s = .ok (-1, s') ∧ ∀ v, v ≠ q → s'.obj v = s.obj v := by
  have hr : request 1 s = .ok (false, { s with tick := s.tick + 1 }) := if_pos hf
  have e1 : init q s = .ok (-1, St.set { s with tick := s.tick + 1 } q { s.obj q with data := .null }) := by
    unfold init
    rw [bind_ok hr]; rfl
  have e2 : initList [q, q + 1, q + 2] s = .ok (-1, St.set { s with tick := s.tick + 1 } q { s.obj q with data := .null }) := by
    unfold initList initListLoop
    rw [bind_ok e1]; rfl
  refine ⟨_, by unfold ecpInit; rw [chk_fail e2 (by decide)], fun v hv => ?_⟩
  show (if v = q then _ else s.obj v) = _
  rw [if_neg hv]

theorem ecdsaSign_lost (hw : DigitWidth w) (h : At K A sp s) {g d r t : Nat} (msg bs : List Byte)
    (hf : ∀ k, k < 2 → s.fails (s.tick + k) = false) (hf2 : s.fails (s.tick + 2) = true) :
    ∃ s', ecdsaSign w sp g d r t msg bs s = .ok (0, s') ∧ At K A sp s' := by
  have hw0 : 0 < w := by have := hw.pos; omega
  obtain ⟨s0, e0, h0⟩ := decl_run h 2
  have ht0 : s0.tick = s.tick ∧ s0.fails = s.fails := by unfold decl at e0; cases e0; exact ⟨rfl, rfl⟩
  have hlist : ∀ v, v ∈ [sp, sp + 1] ↔ sp ≤ v ∧ v < sp + 2 := by
    intro v; simp only [List.mem_cons, List.not_mem_nil, or_false]; omega
  obtain ⟨s1, e1, h1, t1⟩ := initList_some hw0 h0 hlist (by simp) (fun k hk => by rw [ht0.1, ht0.2]; exact hf k hk)
  have f1 : s1.fails = s.fails := h1.orc.trans h.orc.symm
  obtain ⟨s2, e2, h2⟩ := decl_run h1 3
  have ht2 : s2.fails s2.tick = true := by
    have : s2.tick = s1.tick ∧ s2.fails = s1.fails := by unfold decl at e2; cases e2; exact ⟨rfl, rfl⟩
    rw [this.1, this.2, f1, t1, ht0.1]; exact hf2
  obtain ⟨s3, e3, h3⟩ := initList_first (N := 3) (a := sp + 2) (as := [sp + 2 + 1, sp + 2 + 2]) hw0 h2 (by
    intro v; simp only [List.mem_cons, List.not_mem_nil, or_false]; omega) (by simp) ht2
  have e3 : ecpInit w (sp + 2) s2 = .ok (-1, s3) := by unfold ecpInit; rw [chk_fail e3 (by decide)]
  obtain ⟨s4, e4, h4⟩ := clearList_calm h3 hlist
  refine ⟨s4, ?_, h4⟩
  unfold ecdsaSign
  rw [bind_ok e0, chk_ok e1, bind_ok e2, bind_ok e3, if_neg (by decide)]
  exact (bind_ok e4).trans rfl

theorem ecdsaVerify_ub (w sp : Nat) {g q r t : Nat} (msg : List Byte)
    (hf : ∀ k, k < 2 → s.fails (s.tick + k) = false) (hf2 : s.fails (s.tick + 2) = true) :
    ecdsaVerify w sp g q r t msg s = .ub := by
  obtain ⟨s0, e0, h0⟩ : ∃ s0, decl sp 2 s = .ok ((), s0) ∧ s0.tick = s.tick ∧ s0.fails = s.fails := ⟨_, rfl, rfl, rfl⟩
  obtain ⟨s1, e1, t1⟩ := initListLoop_tick [sp, sp + 1] [] s0 (fun k hk => by rw [h0.1, h0.2]; exact hf k hk)
  have f1 : s1.fails = s.fails := by
    obtain ⟨u1, v1, x1, y1⟩ := init_ok (s := s0) sp (by rw [h0.1, h0.2]; exact hf 0 (by omega))
    obtain ⟨u2, v2, x2, y2⟩ := init_ok (s := u1) (sp + 1) (by rw [x1, y1, h0.1, h0.2]; exact hf 1 (by omega))
    have : initListLoop [] [sp, sp + 1] s0 = .ok (0, u2) := by
      unfold initListLoop
      rw [bind_ok v1, if_pos rfl]
      unfold initListLoop
      rw [bind_ok v2, if_pos rfl]; rfl
    rw [e1] at this
    cases this
    rw [x2, x1, h0.2]
  obtain ⟨s2, e2, h2⟩ : ∃ s2, decl (sp + 2) 6 s1 = .ok ((), s2) ∧ s2.tick = s1.tick ∧ s2.fails = s1.fails ∧ s2.obj (sp + 3) = Obj.fresh :=
    ⟨_, rfl, rfl, rfl, if_pos (by omega)⟩
  obtain ⟨s3, e3, h3⟩ := ecpInit_no w (sp + 2) (s := s2) (by rw [h2.1, h2.2.1, f1, t1, h0.1]; exact hf2)
  have e4 : ecpInitList w [sp + 2, sp + 5] s2 = .ok (-1, s3) := by
    unfold ecpInitList ecpInitListLoop
    rw [bind_ok e3, if_neg (by decide)]; rfl
  unfold ecdsaVerify
  rw [bind_ok e0, chk_ok (show initList [sp, sp + 1] s0 = _ from e1), bind_ok e2, bind_ok (chk_fail e4 (by decide)), bind_apply,
    clearList_ub (v := sp + 3) _ _ (by simp) (by rw [h3 _ (by omega), h2.2.2]; rfl)]

end Verif.Mem
