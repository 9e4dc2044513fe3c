import Verif.Lemmas.Mem.Any
/-! ElGamal verification, whichever allocations fail. -/
namespace Verif.Mem
open Verif.Mpi

variable {w sp N : Nat} {K : Ctx} {A : Env} {s : St} {L L' : List Int}

/-- How a call on locals ends. -/
def StepAny (w sp N : Nat) (K : Ctx) (A : Env) (L' : List Int) (run : Out (Int × St)) : Prop :=
  (∃ s', run = .ok (0, s') ∧ At K (NV w sp A L') (sp + N) s') ∨
  (∃ s', run = .ok (-1, s') ∧ Bad K s' ∧ At K (Locals sp A (AnyR w)) (sp + N) s') ∨ (run = .ub ∧ K.May)

/-- How a sequence of calls on locals ends that decides `G`. -/
def RunAny (w sp N : Nat) (K : Ctx) (A : Env) (G : Prop) (run : Out (Int × St)) : Prop :=
  (∃ s' st, run = .ok (st, s') ∧ At K (Locals sp A (AnyR w)) (sp + N) s' ∧ ((st = 0 ∧ G) ∨ (st = -1 ∧ (¬ G ∨ Bad K s')))) ∨ (run = .ub ∧ K.May)

theorem NV.anyR {S : Nat} : Le S (NV w sp A L) (Locals sp A (AnyR w)) := by
  intro v _ o ho
  by_cases h : v < sp
  · rw [NV.lo h] at ho; rw [Locals.lo h]; exact ho
  · obtain ⟨j, rfl⟩ := Nat.exists_eq_add_of_le (Nat.le_of_not_lt h)
    rw [NV.hi] at ho
    rw [Locals.hi (by omega)]
    exact ho.any.r

theorem StepAny.of_any {run : Out (Int × St)} (h : (∃ s', run = .ok (0, s') ∧ At K (NV w sp A L') (sp + N) s') ∨
    (∃ s' L'', run = .ok (-1, s') ∧ Bad K s' ∧ At K (NV w sp A L'') (sp + N) s') ∨ (run = .ub ∧ K.May)) : StepAny w sp N K A L' run := by
  rcases h with h | ⟨s', L'', e, b, h⟩ | h
  · exact Or.inl h
  · exact Or.inr (Or.inl ⟨s', e, b, h.le NV.anyR⟩)
  · exact Or.inr (Or.inr h)

theorem StepAny.of_leaf {c : M Int} {bad : Obj → Prop} {i : Nat} {z : Int} (h : At K (NV w sp A L) (sp + N) s) (hi : i < N) (hL : L.length = N)
    (hl : Leaf (sp + N) s (sp + i) c (V w z 0) bad) (hbad : ∀ o, bad o → AnyR w o) (hL' : L' = L.set i z) : StepAny w sp N K A L' (c s) := by
  obtain ⟨st, s', e, h'⟩ := leaf_at h (by omega) hl
  rcases h' with ⟨rfl, h'⟩ | ⟨rfl, hb, h'⟩
  · exact Or.inl ⟨s', e, by rw [hL']; exact h'.le (Nums.set (Q := fun z => V w z 0) (by omega))⟩
  · refine Or.inr (Or.inl ⟨s', e, hb, h'.le fun v hv o ho => ?_⟩)
    by_cases hvi : v = sp + i
    · subst hvi
      rw [Function.update_self] at ho
      rw [Locals.hi (by omega)]; exact hbad _ ho
    · rw [Function.update_of_ne hvi] at ho
      exact NV.anyR v hv o ho

theorem chk_any {c k : M Int} {G : Prop} (h : StepAny w sp N K A L' (c s)) (hk : ∀ s', At K (NV w sp A L') (sp + N) s' → RunAny w sp N K A G (k s')) :
    RunAny w sp N K A G (chk c k s) := by
  rcases h with ⟨s1, e, h⟩ | ⟨s1, e, b, h⟩ | ⟨e, m⟩
  · rw [chk_ok e]; exact hk s1 h
  · exact Or.inl ⟨s1, -1, chk_fail e (by decide), h, Or.inr ⟨rfl, Or.inr b⟩⟩
  · refine Or.inr ⟨?_, m⟩
    unfold chk
    rw [bind_apply, e]

theorem clearList_anyR {as : List Nat} (h : At K (Locals sp A (AnyR w)) (sp + N) s) (has : ∀ v, v ∈ as ↔ sp ≤ v ∧ v < sp + N) :
    ∃ s', clearList as s = .ok ((), s') ∧ At K A sp s' ∧ s.tick ≤ s'.tick := by
  obtain ⟨s', e, h', t⟩ := clearList_at as _ s h (fun a ha => ((has a).1 ha).2) (fun a ha o ho => by
    rw [Locals.hi ((has a).1 ha).1] at ho
    exact ho.clr)
  refine ⟨s', e, (exit_at h' fun v h1 h2 o ho => ?_).le fun v hv o ho => ?_, t⟩
  · unfold Sets at ho
    rw [if_pos ((has v).2 ⟨h1, h2⟩)] at ho
    rw [ho]; rfl
  · unfold Sets at ho
    rw [if_neg (by rw [has]; omega), Locals.lo hv] at ho
    exact ho

theorem two_mem (v : Nat) : v ∈ [sp, sp + 1] ↔ sp ≤ v ∧ v < sp + 2 := by
  simp only [List.mem_cons, List.not_mem_nil, or_false]; omega

/-- The locals are cleared at the end. -/
theorem RunAny.clear {c : M Int} {G : Prop} {as : List Nat} (h : RunAny w sp N K A G (c s)) (has : ∀ v, v ∈ as ↔ sp ≤ v ∧ v < sp + N) :
    ((do let st ← c; clearList as; pure st : M Int) s = .ub ∧ K.May) ∨
    ∃ st s', (do let st ← c; clearList as; pure st : M Int) s = .ok (st, s') ∧ At K A sp s' ∧ ((st = 0 ∧ G) ∨ (st = -1 ∧ (¬ G ∨ Bad K s'))) := by
  rcases h with ⟨s1, st, e, h, r⟩ | ⟨e, m⟩
  · obtain ⟨s2, e2, h2, ht⟩ := clearList_anyR h has
    refine Or.inr ⟨st, s2, by rw [bind_ok e, bind_ok e2]; rfl, h2, r.imp id fun r => ⟨r.1, r.2.imp id ?_⟩⟩
    rintro ⟨k, k1, k2, k3⟩
    exact ⟨k, k1, by omega, k3⟩
  · exact Or.inl ⟨by rw [bind_apply, e], m⟩

theorem cn_mul_any {S r x y i : Nat} {zx zy z : Int} (hS : S = sp + N) (hw : DigitWidth w) (h : At K (NV w sp A L) (sp + N) s) (hL : L.length = N) (hr : r = sp + i) (hi : i < N)
    (hx : Src w sp N A L x zx) (hy : Src w sp N A L y zy) (hz : z = zx * zy) (hL' : L' = L.set i z) : StepAny w sp N K A L' (mul w S r x y s) := by
  subst hr hz hS
  have hv := Nums.val h hi
  exact .of_leaf h hi hL (mul_leaf hw.pos hv.r (shows_rs (hx.get h)) (shows_rs (hy.get h)) (by omega) hx.lt hy.lt (Or.inl rfl)) (fun o ho => ho) hL'

theorem cn_mod_any {S r x m i : Nat} {zx zm z : Int} (hS : S = sp + N) (hw : DigitWidth w) (h : At K (NV w sp A L) (sp + N) s) (hL : L.length = N) (hr : r = sp + i) (hi : i < N)
    (hx : Src w sp N A L x zx) (hm : Src w sp N A L m zm) (hm0 : 0 < zm) (hmr : m ≠ r) (hz : z = zx % zm) (hL' : L' = L.set i z) :
    StepAny w sp N K A L' (mod w S r x m s) := by
  subst hr hz hS
  have hv := Nums.val h hi
  exact .of_leaf h hi hL (mod_leaf hw (hx.get h) (hm.get h) hx.lt hm.lt hm0 (by omega) hv.any (Or.inr hmr)) (fun o ho => by
    first | exact ho | exact ho.r | exact ho.any.r | (rw [ho]; exact hv.any.r)) hL'

theorem cn_loadBin_any {r i : Nat} {z : Int} (hw : DigitWidth w) (h : At K (NV w sp A L) (sp + N) s) (hL : L.length = N) (hr : r = sp + i) (hi : i < N)
    (hd : 0 ≤ L.getD i 0) (bs : List Byte) (hz : z = beVal bs) (hL' : L' = L.set i z) : StepAny w sp N K A L' (loadBin w r bs s) := by
  subst hr hz
  exact .of_leaf h hi hL (loadBin_v hw (Nums.val h hi) hd bs) (fun o ho => ho.any.r) hL'

theorem elgamalVerify2_any (hw : DigitWidth w) (h : At K A sp s) {p g y r t : Nat} {P R S : Nat} {G Y : Int}
    (hp : p < sp) (hg : g < sp) (hy : y < sp) (hr : r < sp) (ht : t < sp)
    (ap : ∀ o, A p o → o.Shows w P) (ag : ∀ o, A g o → o.Shows w G) (ay : ∀ o, A y o → o.Shows w Y)
    (ar : ∀ o, A r o → o.Shows w R) (at' : ∀ o, A t o → o.Shows w S) (hP : 1 < P) (hR : 0 < R) (hS : 0 < S) (msg : List Byte) (hm : 0 < beVal msg) :
    (elgamalVerify2 w sp p g y r t msg s = .ub ∧ K.May) ∨
    ∃ st s', elgamalVerify2 w sp p g y r t msg s = .ok (st, s') ∧ At K A sp s' ∧
      ((st = 0 ∧ msg.length ≤ (P.size + 7) / 8 ∧ ElgamalEq P G Y R S (beVal msg)) ∨
       (st = -1 ∧ (¬ (msg.length ≤ (P.size + 7) / 8 ∧ ElgamalEq P G Y R S (beVal msg)) ∨ Bad K s'))) := by
  have hw0 : 0 < w := by have := hw.pos; omega
  unfold elgamalVerify2
  rw [bind_ok (countBytes_shows hw (ap _ (h.objs p hp)))]
  by_cases hl : (P.size + 7) / 8 < msg.length
  · rw [if_pos hl]
    exact Or.inr ⟨-1, s, rfl, h, Or.inr ⟨rfl, Or.inl fun h => absurd h.1 (by omega)⟩⟩
  rw [if_neg hl]
  obtain ⟨s0, e0, h0⟩ := decl_run h 2
  rw [bind_ok e0]
  rcases initList_any hw0 h0 two_mem (by simp) with ⟨s1, e1, h1⟩ | ⟨s1, e1, b1, h1⟩
  swap
  · rw [chk_fail e1 (by decide)]
    exact Or.inr ⟨-1, s1, rfl, h1, Or.inr ⟨rfl, Or.inr b1⟩⟩
  rw [chk_ok e1]
  have sP : ∀ L, Src w sp 2 A L p P := fun L => Src.arg hp ap
  set X : Int := (Y ^ R % P) * ((R : Int) ^ S % P) % P with hX
  set Z : Int := G ^ beVal msg % P with hZ
  have key : X = Z ↔ ElgamalEq P G Y R S (beVal msg) := by
    unfold ElgamalEq Int.ModEq
    rw [hX, hZ, ← Int.mul_emod]
  have hlen : msg.length ≤ (P.size + 7) / 8 := by omega
  have hrun : RunAny w sp 2 K A (ElgamalEq P G Y R S (beVal msg)) ((chk (modExp w (sp + 2) sp y r (some p)) <|
        chk (modExp w (sp + 2) (sp + 1) r t (some p)) <|
        chk (mul w (sp + 2) sp sp (sp + 1)) <|
        chk (mod w (sp + 2) sp sp p) <|
        chk (loadBin w (sp + 1) msg) <|
        chk (modExp w (sp + 2) (sp + 1) g (sp + 1) (some p)) do
          let c ← cmp sp (sp + 1)
          pure (if c ≠ 0 then -1 else 0)) s1) := by
    refine chk_any (.of_any <| cn_modExp_any (S := sp + 2) rfl hw h1 (by simp) (r := sp) (i := 0) rfl (by omega) (Src.arg hy ay) (Src.arg hr ar) (sP _) hR hP rfl rfl) fun s2 h2 => ?_
    refine chk_any (.of_any <| cn_modExp_any (S := sp + 2) rfl hw h2 (by simp) (r := sp + 1) (i := 1) rfl (by omega) (Src.arg hr ar) (Src.arg ht at') (sP _) hS hP rfl rfl) fun s3 h3 => ?_
    have h3 : At K (NV w sp A [Y ^ R % P, (R : Int) ^ S % P]) (sp + 2) s3 := h3
    refine chk_any (cn_mul_any (S := sp + 2) rfl hw h3 rfl (r := sp) (i := 0) rfl (by omega) (Src.loc (x := sp) (j := 0) rfl (by omega)) (Src.loc (x := sp + 1) (j := 1) rfl (by omega)) rfl rfl) fun s4 h4 => ?_
    refine chk_any (cn_mod_any (S := sp + 2) rfl hw h4 rfl (r := sp) (i := 0) rfl (by omega) (Src.loc (x := sp) (j := 0) rfl (by omega)) (sP _) (by omega) (by omega) rfl rfl) fun s5 h5 => ?_
    have h5 : At K (NV w sp A [X, (R : Int) ^ S % P]) (sp + 2) s5 := h5
    refine chk_any (cn_loadBin_any hw h5 rfl (r := sp + 1) (i := 1) rfl (by omega) (Int.emod_nonneg _ (by omega)) msg rfl rfl) fun s6 h6 => ?_
    have h6 : At K (NV w sp A [X, (beVal msg : Int)]) (sp + 2) s6 := h6
    refine chk_any (.of_any <| cn_modExp_any (S := sp + 2) rfl hw h6 rfl (r := sp + 1) (i := 1) rfl (by omega) (Src.arg hg ag) (Src.loc (x := sp + 1) (j := 1) rfl (by omega)) (sP _)
      hm hP rfl rfl) fun s7 h7 => ?_
    have h7 : At K (NV w sp A [X, Z]) (sp + 2) s7 := h7
    have e8 : cmp sp (sp + 1) s7 = .ok (if X < Z then -1 else if X = Z then 0 else 1, s7) :=
      cmp_eval (Src.get (Src.loc (x := sp) (j := 0) rfl (by omega)) h7) (Src.get (Src.loc (x := sp + 1) (j := 1) rfl (by omega)) h7)
    rw [bind_ok e8]
    refine Or.inl ⟨s7, if X = Z then 0 else -1, ?_, h7.le NV.anyR, ?_⟩
    · show Out.ok ((if (if X < Z then (-1 : Int) else if X = Z then 0 else 1) ≠ 0 then -1 else 0 : Int), s7) = _
      by_cases hxz : X = Z
      · rw [if_neg (show ¬ X < Z by omega), if_pos hxz, if_pos hxz]; rfl
      · rw [if_neg hxz, if_neg hxz]
        split_ifs <;> first | rfl | contradiction
    · by_cases hq : X = Z
      · left; exact ⟨if_pos hq, key.1 hq⟩
      · right; exact ⟨if_neg hq, Or.inl fun h => hq (key.2 h)⟩
  rcases hrun.clear two_mem with h | ⟨st, s', e, h, r⟩
  · exact Or.inl h
  · refine Or.inr ⟨st, s', e, h, ?_⟩
    rcases r with ⟨r, q⟩ | ⟨r, q⟩
    · exact Or.inl ⟨r, hlen, q⟩
    · exact Or.inr ⟨r, q.imp (fun q h => q h.2) id⟩

theorem elgamalVerify_any (hw : DigitWidth w) (h : At K A sp s) {p g y : Nat} {P : Nat} {G Y : Int} (hp : p < sp) (hg : g < sp) (hy : y < sp)
    (ap : ∀ o, A p o → o.Shows w P) (ag : ∀ o, A g o → o.Shows w G) (ay : ∀ o, A y o → o.Shows w Y) (hP : 1 < P) {rb sb rest : List Byte}
    (hr : rb.length = (P.size + 7) / 8) (ht : sb.length = (P.size + 7) / 8) (hR : 0 < beVal rb) (hS : 0 < beVal sb) (msg : List Byte) (hm : 0 < beVal msg) :
    (elgamalVerify w sp p g y (rb ++ sb ++ rest) msg s = .ub ∧ K.May) ∨
    ∃ st s', elgamalVerify w sp p g y (rb ++ sb ++ rest) msg s = .ok (st, s') ∧ At K A sp s' ∧
      ((st = 0 ∧ msg.length ≤ (P.size + 7) / 8 ∧ ElgamalEq P G Y (beVal rb) (beVal sb) (beVal msg)) ∨
       (st = -1 ∧ (¬ (msg.length ≤ (P.size + 7) / 8 ∧ ElgamalEq P G Y (beVal rb) (beVal sb) (beVal msg)) ∨ Bad K s'))) := by
  have hw0 : 0 < w := by have := hw.pos; omega
  unfold elgamalVerify
  obtain ⟨s0, e0, h0⟩ := decl_run h 2
  rw [bind_ok e0]
  rcases initList_any hw0 h0 two_mem (by simp) with ⟨s1, e1, h1⟩ | ⟨s1, e1, b1, h1⟩
  swap
  · rw [chk_fail e1 (by decide)]
    exact Or.inr ⟨-1, s1, rfl, h1, Or.inr ⟨rfl, Or.inr b1⟩⟩
  rw [chk_ok e1]
  have np : ∀ {L : List Int} {v : Nat} {Q : Obj → Prop}, v < sp → (∀ o, A v o → Q o) → ∀ o, NV w sp A L v o → Q o := fun {L v Q} hv hq o ho => by
    rw [NV.lo hv] at ho; exact hq o ho
  rw [bind_ok (countBytes_shows hw (np hp ap _ (h1.objs p (by omega))))]
  have t1 : (rb ++ sb ++ rest).take ((P.size + 7) / 8) = rb := by
    rw [List.append_assoc, ← hr, List.take_left]
  have t2 : ((rb ++ sb ++ rest).drop ((P.size + 7) / 8)).take ((P.size + 7) / 8) = sb := by
    rw [List.append_assoc]
    rw [List.drop_left' hr, ← ht, List.take_left]
  rw [if_neg (by simp only [List.length_append]; omega), t1, t2]
  refine RunAny.clear (w := w) (G := msg.length ≤ (P.size + 7) / 8 ∧ ElgamalEq P G Y (beVal rb) (beVal sb) (beVal msg)) ?_ two_mem
  refine chk_any (cn_loadBin_any hw h1 rfl (r := sp) (i := 0) rfl (by omega) (le_refl _) rb rfl rfl) fun s3 h3 => ?_
  refine chk_any (cn_loadBin_any hw h3 rfl (r := sp + 1) (i := 1) rfl (by omega) (le_refl _) sb rfl rfl) fun s4 h4 => ?_
  have h4 : At K (NV w sp A [(beVal rb : Int), (beVal sb : Int)]) (sp + 2) s4 := h4
  have n0 := NV.hi (w := w) (sp := sp) (A := A) (L := [(beVal rb : Int), (beVal sb : Int)]) (i := 0)
  have n1 := NV.hi (w := w) (sp := sp) (A := A) (L := [(beVal rb : Int), (beVal sb : Int)]) (i := 1)
  rcases elgamalVerify2_any hw h4 (p := p) (g := g) (y := y) (r := sp) (t := sp + 1) (by omega) (by omega) (by omega) (by omega) (by omega)
    (np hp ap) (np hg ag) (np hy ay) (fun o ho => by rw [Nat.add_zero] at n0; rw [n0] at ho; exact ho.shows) (fun o ho => by rw [n1] at ho; exact ho.shows) hP hR hS msg hm
    with h | ⟨st, s', e, h, r⟩
  · exact Or.inr h
  · exact Or.inl ⟨s', st, e, h.le NV.anyR, r⟩

end Verif.Mem
