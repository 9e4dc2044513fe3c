import Verif.Lemmas.Mem.EcpMul
import Verif.Lemmas.Mem.Elgamal
/-! Functions with numbers as locals and blocks of bytes, whichever allocations fail. -/
namespace Verif.Mem
open Verif.Mpi

variable {w sp N S : Nat} {K : Ctx} {A E : Env} {s : St} {L L' : List Int}

/-- Some allocation from the beginning on is going to fail. -/
def Ctx.May (K : Ctx) : Prop := ∃ k, K.T ≤ k ∧ K.F k = true

theorem Bad.may (h : Bad K s) : K.May := h.imp fun _ h => ⟨h.1, h.2.2⟩

theorem request_any (h : At K E S s) : (∃ s', request 1 s = .ok (false, s') ∧ At K E S s' ∧ Bad K s') ∨
    ∃ s', request 1 s = .ok (true, s') ∧ At K.more E S s' := by
  have ht := h.tick
  by_cases hf : s.fails s.tick = true
  · exact Or.inl ⟨_, if_pos hf, ⟨h.objs, h.bal, h.orc, ht.trans (Nat.le_succ _)⟩, s.tick, ht, Nat.lt_succ_self _, by rw [← h.orc]; exact hf⟩
  · refine Or.inr ⟨_, if_neg hf, ⟨h.objs, ?_, h.orc, ht.trans (Nat.le_succ _)⟩⟩
    show s.live + 1 = K.B + 1 + _
    rw [h.bal]; ring

theorem request_zero (h : At K E S s) : (∃ s', request 0 s = .ok (false, s') ∧ At K E S s' ∧ Bad K s') ∨
    ∃ s', request 0 s = .ok (true, s') ∧ At K E S s' := by
  have ht := h.tick
  by_cases hf : s.fails s.tick = true
  · exact Or.inl ⟨_, if_pos hf, ⟨h.objs, h.bal, h.orc, ht.trans (Nat.le_succ _)⟩, s.tick, ht, Nat.lt_succ_self _, by rw [← h.orc]; exact hf⟩
  · refine Or.inr ⟨_, if_neg hf, ⟨h.objs, ?_, h.orc, ht.trans (Nat.le_succ _)⟩⟩
    show s.live + 0 = _
    rw [h.bal]; ring

theorem initList_any (hw : 0 < w) {as : List Nat} (h : At K (Locals sp A (· = Obj.fresh)) (sp + N) s)
    (has : ∀ v, v ∈ as ↔ sp ≤ v ∧ v < sp + N) (hn : as.Nodup) :
    (∃ s', initList as s = .ok (0, s') ∧ At K (NV w sp A (List.replicate N 0)) (sp + N) s') ∨
    ∃ s', initList as s = .ok (-1, s') ∧ Bad K s' ∧ At K A sp s' := by
  obtain ⟨st, s', e, h'⟩ := initListLoop_at (w := w) hw as [] s (E := Locals sp A (· = Obj.fresh))
    (h.le fun v _ o ho => by unfold Sets; rw [if_neg (by simp)]; exact ho)
    (by intro a ha; exact ((has a).1 (by simpa using ha)).2) (by simpa using hn) (by
      intro a ha o ho
      rw [Locals.hi ((has a).1 ha).1] at ho
      rw [ho]; rfl)
  rw [List.nil_append] at h'
  rcases h' with ⟨rfl, h2⟩ | ⟨rfl, hb, h2⟩
  · refine Or.inl ⟨s', e, h2.le fun v hv o ho => ?_⟩
    unfold Sets at ho
    by_cases hvs : v < sp
    · rw [if_neg (by rw [has]; omega), Locals.lo hvs] at ho
      rw [NV.lo hvs]; exact ho
    · rw [if_pos (by rw [has]; omega)] at ho
      unfold NV Nums
      rw [if_neg hvs, List.getD_eq_getElem?_getD, List.getElem?_replicate]
      split <;> exact ho.weak (Nat.zero_le _)
  · refine Or.inr ⟨s', e, hb, (exit_at h2 fun v h3 h4 o ho => ?_).le fun v hv o ho => ?_⟩
    · unfold Sets at ho; rwa [if_pos ((has v).2 ⟨h3, h4⟩)] at ho
    · unfold Sets at ho; rwa [if_neg (by rw [has]; omega), Locals.lo hv] at ho

/-- A call that writes to a local. -/
theorem cn_any {c : M Int} {bad : Obj → Prop} {i : Nat} {z : Int} (h : At K (NV w sp A L) (sp + N) s) (hi : i < N) (hL : L.length = N)
    (hl : Leaf (sp + N) s (sp + i) c (V w z 0) bad) (hbad : ∀ o, bad o → Any w o) (hL' : L' = L.set i z) :
    (∃ s', c s = .ok (0, s') ∧ At K (NV w sp A L') (sp + N) s') ∨
    ∃ s' L'', c s = .ok (-1, s') ∧ Bad K s' ∧ At K (NV w sp A L'') (sp + N) s' := by
  obtain ⟨st, s', e, h'⟩ := leaf_at h (by omega) hl
  rcases h' with ⟨rfl, h'⟩ | ⟨rfl, hb, h'⟩
  · exact Or.inl ⟨s', e, by rw [hL']; exact h'.le (Nums.set (Q := fun z => V w z 0) (by omega))⟩
  · have hv := h'.objs (sp + i) (by omega)
    rw [Function.update_self] at hv
    obtain ⟨z', hz'⟩ := hbad _ hv
    have h2 : At K (Function.update (NV w sp A L) (sp + i) (V w z' 0)) (sp + N) s' := ⟨fun v hv => by
      by_cases hv1 : v = sp + i
      · subst hv1; rw [Function.update_self]; exact hz'
      · have := h'.objs v hv; rw [Function.update_of_ne hv1] at this ⊢; exact this, h'.bal, h'.orc, h'.tick⟩
    exact Or.inr ⟨s', L.set i z', e, hb, h2.le (Nums.set (Q := fun z => V w z 0) (by omega))⟩

/-- The power with a modulus when the first request fails: an uninitialised number is squared. -/
theorem modExp_first_ub (hw : DigitWidth w) {S r b e m : Nat} {x M : Nat} (he : (s.obj e).Shows w x) (hm : (s.obj m).Shows w M) (hes : e < S) (hms : m < S)
    (hx : 0 < x) (hf : s.fails s.tick = true) : modExp w S r b e (some m) s = .ub := by
  obtain ⟨me, e1, e2, e3⟩ := id he
  obtain ⟨mm, m1, m2, am, m3, -⟩ := id hm
  obtain ⟨ae, e4, -⟩ := id e3
  have hme : me.neg = false := by rw [← Bool.not_eq_true, Mpi.neg_iff_of_wf e1, e2]; omega
  have hmm : mm.neg = false := by rw [← Bool.not_eq_true, Mpi.neg_iff_of_wf m1, m2]; omega
  let s1 : St := { s with obj := fun p => if S ≤ p ∧ p < S + 1 then Obj.fresh else s.obj p }
  have ed : decl S 1 s = .ok ((), s1) := rfl
  have ob : ∀ v, v < S → s1.obj v = s.obj v := fun v hv => if_neg (by omega)
  have oS : s1.obj S = Obj.fresh := if_pos (by omega)
  let s2 : St := St.set { s1 with tick := s1.tick + 1 } S { s1.obj S with data := .null }
  have ei : initInt w S 1 s1 = .ok (-1, s2) := by
    have er : request 1 s1 = .ok (false, { s1 with tick := s1.tick + 1 }) := if_pos hf
    have : init S s1 = .ok (-1, s2) := by unfold init; rw [bind_ok er]; rfl
    unfold initInt; exact chk_fail this (by decide)
  have ob2 : ∀ v, v < S → s2.obj v = s.obj v := fun v hv => by
    show (if v = S then _ else s1.obj v) = _
    rw [if_neg (by omega)]; exact ob v hv
  have oS2 : (s2.obj S).hdr = none := by
    show (if S = S then _ else s1.obj S).hdr = none
    rw [if_pos rfl]
    show (s1.obj S).hdr = none
    rw [oS]; rfl
  have en : negOpt (some m) s1 = .ok (false, s1) := by
    rw [negOpt, bind_ok (hdr_ok (by rw [ob m hms]; exact m3))]
    dsimp only
    rw [hmm]; rfl
  obtain ⟨k, hk⟩ : ∃ k, x.size = k + 1 := ⟨x.size - 1, by have := Nat.size_pos.2 hx; omega⟩
  have ec : countBits w e s2 = .ok (k + 1, s2) := by rw [← hk]; exact countBits_shows hw (by rw [ob2 e hes]; exact he)
  have hq : sqr w (S + 1) S S s2 = .ub := by
    unfold sqr
    have : hdr S s2 = .ub := by
      unfold hdr
      rw [bind_ok (show getObj S s2 = .ok (s2.obj S, s2) from rfl), oS2]; rfl
    rw [bind_apply, this]
  have hl : expLoop w (S + 1) S b e (some m) (k + 1) s2 = .ub := by
    unfold expLoop chk
    rw [bind_apply, hq]
  unfold modExp
  rw [bind_ok ed, bind_ok (hdr_ok (by rw [ob e hes]; exact e4)), bind_ok en]
  dsimp only
  rw [if_neg (by rw [hme]; decide), bind_ok ei, bind_ok ec, bind_apply, hl]

/-- The power with a modulus into a local. -/
theorem cn_modExp_any {S r b e m i : Nat} {zb z : Int} {x M : Nat} (hS : S = sp + N) (hw : DigitWidth w) (h : At K (NV w sp A L) (sp + N) s) (hL : L.length = N)
    (hr : r = sp + i) (hi : i < N) (hb : Src w sp N A L b zb) (he : Src w sp N A L e x) (hm : Src w sp N A L m M) (hx : 0 < x) (hM : 1 < M)
    (hz : z = zb ^ x % M) (hL' : L' = L.set i z) :
    (∃ s', modExp w S r b e (some m) s = .ok (0, s') ∧ At K (NV w sp A L') (sp + N) s') ∨
    (∃ s' L'', modExp w S r b e (some m) s = .ok (-1, s') ∧ Bad K s' ∧ At K (NV w sp A L'') (sp + N) s') ∨
    (modExp w S r b e (some m) s = .ub ∧ K.May) := by
  subst hr hz hS
  by_cases hf : s.fails s.tick = true
  · exact Or.inr (Or.inr ⟨modExp_first_ub hw (he.get h) (hm.get h) he.lt hm.lt hx hf, s.tick, h.tick, by rw [← h.orc]; exact hf⟩)
  · have hv := Nums.val h hi
    rcases cn_any h hi hL (modExp_v hw (by simpa using hf) hv.any (hb.get h) (he.get h) (hm.get h) (by omega) (by omega) (by omega) hb.lt he.lt hm.lt)
      (fun o ho => by rw [ho]; exact hv.any) hL' with h1 | h1
    · exact Or.inl h1
    · exact Or.inr (Or.inl h1)

end Verif.Mem
