import Verif.Lemmas.Mem.DsaSign
/-! ElGamal signatures in memory: what the functions do when no allocation fails. -/
namespace Verif.Mem
open Verif.Mpi

variable {w : Nat} {K : Ctx} {A : Env} {sp N : Nat} {s : St}

theorem countBytes_shows (hw : DigitWidth w) {v : Nat} {n : Nat} (h : (s.obj v).Shows w n) : countBytes w v s = .ok ((n.size + 7) / 8, s) := by
  unfold countBytes
  rw [bind_ok (countBits_shows hw h)]; rfl

theorem elgamalVerify2_calm (hw : DigitWidth w) (hK : K.Calm) (h : At K A sp s) {p g y r t : Nat} {P R S : Nat} {G Y : Int}
    (hp : p < sp) (hg : g < sp) (hy : y < sp) (hr : r < sp) (ht : t < sp)
    (ap : ∀ o, A p o → o.Shows w P) (ag : ∀ o, A g o → o.Shows w G) (ay : ∀ o, A y o → o.Shows w Y)
    (ar : ∀ o, A r o → o.Shows w R) (at' : ∀ o, A t o → o.Shows w S) (hP : 1 < P) (msg : List Byte) :
    ∃ st s', elgamalVerify2 w sp p g y r t msg s = .ok (st, s') ∧ At K A sp s' ∧
      ((st = 0 ∧ msg.length ≤ (P.size + 7) / 8 ∧ ElgamalEq P G Y R S (beVal msg)) ∨
       (st = -1 ∧ ¬ (msg.length ≤ (P.size + 7) / 8 ∧ ElgamalEq P G Y R S (beVal msg)))) := by
  have hw0 : 0 < w := by have := hw.pos; omega
  unfold elgamalVerify2
  rw [bind_ok (countBytes_shows hw (ap _ (h.objs p hp)))]
  by_cases hl : (P.size + 7) / 8 < msg.length
  · rw [if_pos hl]
    exact ⟨-1, s, rfl, h, Or.inr ⟨rfl, fun h => absurd h.1 (by omega)⟩⟩
  rw [if_neg hl]
  obtain ⟨s0, e0, h0⟩ := decl_run h 2
  rw [bind_ok e0]
  have hlist : ∀ v, v ∈ [sp, sp + 1] ↔ sp ≤ v ∧ v < sp + 2 := by
    intro v; simp only [List.mem_cons, List.not_mem_nil, or_false]; omega
  obtain ⟨s1, e1, h1⟩ := initList_calm hw0 hK h0 hlist (by simp)
  rw [chk_ok e1]
  have sP : ∀ L, Src w sp 2 A L p P := fun L => Src.arg hp ap
  obtain ⟨s2, e2, h2⟩ := cn_modExp (S := sp + 2) rfl hw hK h1 (by simp) (r := sp) (i := 0) rfl (by omega) (Src.arg hy ay) (Src.arg hr ar) (sP _) (by omega) (by omega) rfl rfl
  obtain ⟨s3, e3, h3⟩ := cn_modExp (S := sp + 2) rfl hw hK h2 (by simp) (r := sp + 1) (i := 1) rfl (by omega) (Src.arg hr ar) (Src.arg ht at') (sP _) (by omega) (by omega) rfl rfl
  have h3 : At K (NV w sp A [Y ^ R % P, (R : Int) ^ S % P]) (sp + 2) s3 := h3
  obtain ⟨s4, e4, h4⟩ := cn_mul (S := sp + 2) rfl hw hK h3 rfl (r := sp) (i := 0) rfl (by omega) (Src.loc (x := sp) (j := 0) rfl (by omega)) (Src.loc (x := sp + 1) (j := 1) rfl (by omega)) rfl rfl
  obtain ⟨s5, e5, h5⟩ := cn_mod (S := sp + 2) rfl hw hK h4 rfl (r := sp) (i := 0) rfl (by omega) (Src.loc (x := sp) (j := 0) rfl (by omega)) (sP _) (by omega) (by omega) rfl rfl
  have h5 : At K (NV w sp A [(Y ^ R % P) * ((R : Int) ^ S % P) % P, (R : Int) ^ S % P]) (sp + 2) s5 := h5
  obtain ⟨s6, e6, h6⟩ := cn_loadBin hw hK h5 rfl (r := sp + 1) (i := 1) rfl (by omega) (Int.emod_nonneg _ (by omega)) msg rfl rfl
  have h6 : At K (NV w sp A [(Y ^ R % P) * ((R : Int) ^ S % P) % P, (beVal msg : Int)]) (sp + 2) s6 := h6
  obtain ⟨s7, e7, h7⟩ := cn_modExp (S := sp + 2) rfl hw hK h6 rfl (r := sp + 1) (i := 1) rfl (by omega) (Src.arg hg ag) (Src.loc (x := sp + 1) (j := 1) rfl (by omega)) (sP _)
    (show (0 : Int) ≤ (beVal msg : Int) by omega) (by omega) rfl rfl
  have h7 : At K (NV w sp A [(Y ^ R % P) * ((R : Int) ^ S % P) % P, G ^ beVal msg % P]) (sp + 2) s7 := h7
  have e8 := cmp_eval (Src.get (Src.loc (x := sp) (j := 0) rfl (by omega)) h7) (Src.get (Src.loc (x := sp + 1) (j := 1) rfl (by omega)) h7)
  obtain ⟨s9, e9, h9⟩ := clearList_calm h7 hlist
  set X : Int := (Y ^ R % P) * ((R : Int) ^ S % P) % P with hX
  set Z : Int := G ^ beVal msg % P with hZ
  have e8 : cmp sp (sp + 1) s7 = .ok (if X < Z then -1 else if X = Z then 0 else 1, s7) := e8
  have hc : (chk (modExp w (sp + 2) sp y r (some p)) <|
        chk (modExp w (sp + 2) (sp + 1) r t (some p)) <|
        chk (mul w (sp + 2) sp sp (sp + 1)) <|
        chk (mod w (sp + 2) sp sp p) <|
        chk (loadBin w (sp + 1) msg) <|
        chk (modExp w (sp + 2) (sp + 1) g (sp + 1) (some p)) do
          let c ← cmp sp (sp + 1)
          pure (if c ≠ 0 then -1 else 0)) s1 = .ok (if X = Z then 0 else -1, s7) := by
    rw [chk_ok e2, chk_ok e3, chk_ok e4, chk_ok e5, chk_ok e6, chk_ok e7, bind_ok e8]
    show Out.ok ((if (if X < Z then (-1 : Int) else if X = Z then 0 else 1) ≠ 0 then -1 else 0 : Int), s7) = _
    by_cases hxz : X = Z
    · rw [if_neg (show ¬ X < Z by omega), if_pos hxz, if_pos hxz]; rfl
    · rw [if_neg hxz, if_neg hxz]
      split_ifs <;> first | rfl | contradiction
  have key : X = Z ↔ ElgamalEq P G Y R S (beVal msg) := by
    unfold ElgamalEq Int.ModEq
    rw [hX, hZ, ← Int.mul_emod]
  refine ⟨_, s9, by rw [bind_ok hc, bind_ok e9]; rfl, h9, ?_⟩
  by_cases hq : X = Z
  · left; exact ⟨if_pos hq, by omega, key.1 hq⟩
  · right; exact ⟨if_neg hq, fun h => hq (key.2 h.2)⟩

theorem elgamalSecretLoop_calm (hw : DigitWidth w) (hK : K.Calm) {r k t one T : Nat} (hr : r < sp) (hk : k < sp) (ht : t < sp) (h1 : one < sp)
    (hrk : r ≠ k) (hrt : r ≠ t) (hro : r ≠ one) (hkt : k ≠ t) (hko : k ≠ one) (hT : 0 < T) :
    ∀ (bss : List (List Byte)) (A : Env) (s : St), At K A sp s → (∀ o, A r o → Any w o) → (∀ o, A k o → ∃ z, 0 ≤ z ∧ V w z 0 o) → (∀ o, A t o → o.Shows w T) →
      (∀ o, A one o → o.Shows w 1) → bss ≠ [] →
      (∀ bs ∈ bss, bs.length = (T.size + 7) / 8 ∧ (2 ^ w) ^ ((T.size - 1) / w) ≤ beVal bs ∧ rangeVal T bs ≠ 0) →
      ∃ s', elgamalSecretLoop w sp r k t one bss s = .ok (0, s') ∧ At K (Function.update (Function.update A k (V w (nonce T bss) 0)) r (Any w)) sp s'
  | [], _, _, _, _, _, _, _, h, _ => absurd rfl h
  | bs :: bss, A, s, h, ar, ak, at', a1, _, hb => by
    obtain ⟨b1, b2, b3⟩ := hb bs (by simp)
    obtain ⟨z, hz, hkz⟩ := ak _ (h.objs k hk)
    obtain ⟨s1, e1, h1'⟩ := calm_leaf hK h hk (randRange_leaf hw hkz hz (at' _ (h.objs t ht)) hT hk ht (Ne.symm hkt) bs b1 b2)
    have g1 : ∀ {v : Nat}, v < sp → v ≠ k → A v (s1.obj v) := fun {v} hv hne => by
      have := h1'.objs v hv; rwa [Function.update_of_ne hne] at this
    have gk := h1'.objs k hk
    rw [Function.update_self] at gk
    obtain ⟨s2, e2, h2⟩ := calm_leaf hK h1' hr (gcd_leaf hw (x := k) (y := t) (ar _ (g1 hr hrk)) gk.shows (at' _ (g1 ht (Ne.symm hkt))) (by exact_mod_cast b3) (by omega) hr hk ht)
    have gr := h2.objs r hr
    rw [Function.update_self] at gr
    obtain ⟨z', gr, gz1, gz2⟩ := gr
    have gz2 := gz2 (by omega)
    have go := h2.objs one h1
    rw [Function.update_of_ne (Ne.symm hro), Function.update_of_ne (Ne.symm hko)] at go
    have e3 := cmp_eval gr.shows (a1 _ go)
    have hone : z' = 1 ↔ Nat.gcd (rangeVal T bs) T = 1 := by
      rw [Int.gcd_natCast_natCast] at gz1; omega
    have hc0 : (if z' < 1 then (-1 : Int) else if z' = 1 then 0 else 1) = 0 ↔ z' = 1 := by
      split_ifs with h1 h2
      · constructor <;> intro h
        · cases h
        · omega
      · simp [h2]
      · simp [h2]
    have h3 : At K (Function.update (Function.update A k (V w (rangeVal T bs) 0)) r (Any w)) sp s2 := h2.le fun v hv o ho => by
      by_cases hvr : v = r
      · subst hvr; rw [Function.update_self] at ho ⊢; exact ho.elim fun z h => h.1.any
      · rw [Function.update_of_ne hvr] at ho ⊢; exact ho
    unfold elgamalSecretLoop
    rw [chk_ok e1, chk_ok e2, bind_ok e3]
    by_cases hz1 : z' = 1
    · rw [if_pos (hc0.2 hz1)]
      refine ⟨s2, rfl, ?_⟩
      have : nonce T (bs :: bss) = rangeVal T bs := by
        cases bss with
        | nil => rfl
        | cons b bss => exact if_pos (hone.1 hz1)
      rw [this]; exact h3
    · rw [if_neg (fun h => hz1 (hc0.1 h))]
      cases bss with
      | nil => exact ⟨s2, rfl, h3⟩
      | cons b bss =>
        obtain ⟨s4, e4, h4⟩ := elgamalSecretLoop_calm hw hK hr hk ht h1 hrk hrt hro hkt hko hT (b :: bss) _ s2 h3
          (fun o ho => by rw [Function.update_self] at ho; exact ho)
          (fun o ho => by rw [Function.update_of_ne (Ne.symm hrk), Function.update_self] at ho; exact ⟨_, by omega, ho⟩)
          (fun o ho => by rw [Function.update_of_ne (Ne.symm hrt), Function.update_of_ne (Ne.symm hkt)] at ho; exact at' o ho)
          (fun o ho => by rw [Function.update_of_ne (Ne.symm hro), Function.update_of_ne (Ne.symm hko)] at ho; exact a1 o ho) (by simp)
          (fun c hc => hb c (by simp [List.mem_cons.1 hc]))
        refine ⟨s4, e4, ?_⟩
        rw [show nonce T (bs :: b :: bss) = nonce T (b :: bss) from if_neg (fun h => hz1 (hone.2 h))]
        rwa [Function.update_comm (Ne.symm hrk), Function.update_idem, Function.update_comm hrk, Function.update_idem] at h4

theorem elgamalSecret_calm (hw : DigitWidth w) (hK : K.Calm) {k t one T : Nat} {z : Int} (hk : k < sp) (ht : t < sp) (h1 : one < sp)
    (hkt : k ≠ t) (hko : k ≠ one) (hT : 0 < T) (h : At K A sp s) (ak : ∀ o, A k o → V w z 0 o) (hz : 0 ≤ z) (at' : ∀ o, A t o → o.Shows w T)
    (a1 : ∀ o, A one o → o.Shows w 1) (bss : List (List Byte)) (hb : bss ≠ [])
    (hbs : ∀ bs ∈ bss, bs.length = (T.size + 7) / 8 ∧ (2 ^ w) ^ ((T.size - 1) / w) ≤ beVal bs ∧ rangeVal T bs ≠ 0) :
    ∃ s', elgamalSecret w sp k t one bss s = .ok (0, s') ∧ At K (Function.update A k (V w (nonce T bss) 0)) sp s' := by
  have hw0 : 0 < w := by have := hw.pos; omega
  obtain ⟨s0, e0, h0⟩ := decl_run h 1
  unfold elgamalSecret
  rw [bind_ok e0, ← initList_one, ← clearList_one]
  have hlist : ∀ v, v ∈ [sp] ↔ sp ≤ v ∧ v < sp + 1 := by intro v; simp only [List.mem_singleton]; omega
  obtain ⟨s1, e1, h2⟩ := initList_calm hw0 hK h0 hlist (by simp)
  rw [chk_ok e1]
  have n0 : NV w sp A (List.replicate 1 0) sp = V w 0 0 := by have := NV.hi (w := w) (sp := sp) (i := 0) (A := A) (L := List.replicate 1 0); rwa [Nat.add_zero] at this
  obtain ⟨s2, e2, h3⟩ := elgamalSecretLoop_calm hw hK (sp := sp + 1) (r := sp) (k := k) (t := t) (one := one) (T := T) (by omega) (by omega) (by omega) (by omega) (by omega) (by omega) (by omega) hkt hko hT
    bss _ s1 h2 (fun o ho => by rw [n0] at ho; exact ho.any) (fun o ho => by rw [NV.lo hk] at ho; exact ⟨z, hz, ak o ho⟩) (fun o ho => by rw [NV.lo ht] at ho; exact at' o ho)
    (fun o ho => by rw [NV.lo h1] at ho; exact a1 o ho) hb hbs
  obtain ⟨s3, e3, h4, -⟩ := clearList_at [sp] _ s2 h3 (by simp) (fun a ha o ho => by
    obtain rfl : a = sp := by simpa using ha
    rw [Function.update_self] at ho; exact ho.clr)
  refine ⟨s3, by rw [bind_ok e2, bind_ok e3]; rfl, (exit_at h4 fun v v1 v2 o ho => ?_).le fun v hv o ho => ?_⟩
  · unfold Sets at ho
    rw [if_pos ((hlist v).2 ⟨v1, v2⟩)] at ho; rw [ho]; rfl
  · unfold Sets at ho
    rw [if_neg (fun h => by have := (hlist v).1 h; omega), Function.update_of_ne (show v ≠ sp by omega)] at ho
    by_cases hvk : v = k
    · subst hvk; rw [Function.update_self] at ho ⊢; exact ho
    · rw [Function.update_of_ne hvk, NV.lo hv] at ho; rw [Function.update_of_ne hvk]; exact ho

/-- Signing: the message is too long, or the secret number has no inverse, or a signature is made. -/
theorem elgamalSign2_calm (hw : DigitWidth w) (hK : K.Calm) (h : At K A sp s) {p g d r t : Nat} {P : Nat} {G D : Int}
    (hp : p < sp) (hg : g < sp) (hd : d < sp) (hr : r < sp) (ht : t < sp) (rd : r ≠ d) (rt : r ≠ t)
    (ap : ∀ o, A p o → o.Shows w P) (ag : ∀ o, A g o → o.Shows w G) (ad : ∀ o, A d o → o.Shows w D)
    (ar : ∀ o, A r o → Any w o) (at' : ∀ o, A t o → Any w o) (hP : 1 < P) (msg : List Byte) (bss : List (List Byte)) (hb : bss ≠ [])
    (hbs : ∀ bs ∈ bss, bs.length = ((P - 1).size + 7) / 8 ∧ (2 ^ w) ^ (((P - 1).size - 1) / w) ≤ beVal bs ∧ rangeVal (P - 1) bs ≠ 0) :
    ∃ st s', elgamalSign2 w sp p g d r t msg bss s = .ok (st, s') ∧
      (((P.size + 7) / 8 < msg.length ∧ st = -1 ∧ At K A sp s') ∨
       (msg.length ≤ (P.size + 7) / 8 ∧ Nat.gcd (nonce (P - 1) bss) (P - 1) ≠ 1 ∧ st = -1 ∧
          At K (Function.update (Function.update A r (V w (G ^ nonce (P - 1) bss % P) 0)) t (Any w)) sp s') ∨
       (msg.length ≤ (P.size + 7) / 8 ∧ Nat.gcd (nonce (P - 1) bss) (P - 1) = 1 ∧ st = 0 ∧ ∃ S : Int,
          At K (Function.update (Function.update A r (V w (G ^ nonce (P - 1) bss % P) 0)) t (V w S 0)) sp s' ∧ 0 ≤ S ∧ S < P - 1 ∧
          nonce (P - 1) bss * S + D * (G ^ nonce (P - 1) bss % P) ≡ beVal msg [ZMOD P - 1])) := by
  have hw0 : 0 < w := by have := hw.pos; omega
  unfold elgamalSign2
  rw [bind_ok (countBytes_shows hw (ap _ (h.objs p hp)))]
  by_cases hl : (P.size + 7) / 8 < msg.length
  · rw [if_pos hl]
    exact ⟨-1, s, rfl, Or.inl ⟨hl, rfl, h⟩⟩
  rw [if_neg hl]
  obtain ⟨s0, e0, h0⟩ := decl_run h 4
  rw [bind_ok e0]
  obtain ⟨s1, e1, h1⟩ := const_at (N := 3) h0 1
  rw [bind_ok e1]
  set C : Env := Function.update A sp (· = ⟨some ⟨false, 1, 1⟩, .mem false [some 1]⟩) with hC
  have hlist : ∀ v, v ∈ [sp + 1, sp + 2, sp + 3] ↔ sp + 1 ≤ v ∧ v < sp + 1 + 3 := by
    intro v; simp only [List.mem_cons, List.not_mem_nil, or_false]; omega
  obtain ⟨s2, e2, h2⟩ := initList_calm hw0 hK h1 hlist (by simp)
  rw [chk_ok e2]
  have c1 : ∀ o, C sp o → o.Shows w 1 := fun o ho => by rw [hC, Function.update_self] at ho; rw [ho]; exact one_shows hw 1
  have cc : ∀ {v : Nat} {Q : Obj → Prop}, v < sp → (∀ o, A v o → Q o) → ∀ o, C v o → Q o := fun {v Q} hv ha o ho => ha o (by
    rwa [hC, Function.update_of_ne (by omega)] at ho)
  set T : Nat := P - 1 with hT
  have hT0 : 0 < T := by omega
  have hTP : (P : Int) - 1 = T := by omega
  set k : Nat := nonce T bss with hk
  obtain ⟨s3, e3, h3⟩ := cn_copy hK h2 (by simp) (r := sp + 3) (i := 2) (by omega) (by omega) (x := p) (Src.arg (by omega) (cc hp ap)) rfl
  obtain ⟨s4, e4, h4⟩ := cn_sub hw hK h3 (by simp) (r := sp + 3) (i := 2) (by omega) (by omega) (Src.loc (x := sp + 3) (j := 2) (by omega) (by omega)) (Src.arg (x := sp) (by omega) c1) hTP.symm rfl
  have h4 : At K (NV w (sp + 1) C [0, 0, (T : Int)]) (sp + 1 + 3) s4 := h4
  have nv : ∀ {L : List Int} {i : Nat}, NV w (sp + 1) C L (sp + 1 + i) = V w (L.getD i 0) 0 := NV.hi
  obtain ⟨s5, e5, h5⟩ := elgamalSecret_calm hw hK (sp := sp + 1 + 3) (k := sp + 1) (t := sp + 3) (one := sp) (T := T) (z := 0) (by omega) (by omega) (by omega) (by omega) (by omega) hT0 h4
    (fun o ho => by have := nv (L := [0, 0, (T : Int)]) (i := 0); rw [Nat.add_zero] at this; rw [this] at ho; exact ho) (le_refl _)
    (fun o ho => by have := nv (L := [0, 0, (T : Int)]) (i := 2); rw [show sp + 3 = sp + 1 + 2 by omega, this] at ho; exact ho.shows)
    (fun o ho => by rw [NV.lo (by omega)] at ho; exact c1 o ho) bss hb hbs
  have h5 : At K (NV w (sp + 1) C [(k : Int), 0, (T : Int)]) (sp + 1 + 3) s5 := h5.le (Nums.set (Q := fun z => V w z 0) (i := 0) (L := [0, 0, (T : Int)]) (by simp))
  obtain ⟨s6, e6, h6⟩ := ca_leaf hK h5 (r := r) (by omega) (modExp_v hw (b := g) (e := sp + 1) (m := p) (hK.fails h5 _)
    (cc hr ar _ (by have := h5.objs r (by omega); rwa [NV.lo (by omega)] at this))
    (Src.get (Src.arg (by omega) (cc hg ag)) h5) (Src.get (Src.loc (x := sp + 1) (j := 0) rfl (by omega)) h5) (Src.get (Src.arg (by omega) (cc hp ap)) h5) (show (0 : Int) ≤ (k : Int) by omega) (show (1 : Int) < P by omega)
    (by omega) (by omega) (by omega) (by omega))
  rw [show ([(k : Int), 0, (T : Int)].getD 0 0).toNat = k from rfl] at h6
  set R : Int := G ^ k % P with hR
  set B : Env := Function.update C r (V w R 0) with hB
  have bd : ∀ o, B d o → o.Shows w D := fun o ho => cc hd ad o (by rwa [hB, Function.update_of_ne rd.symm] at ho)
  have bt : ∀ o, B t o → Any w o := fun o ho => cc ht at' o (by rwa [hB, Function.update_of_ne rt.symm] at ho)
  have br : ∀ o, B r o → o.Shows w R := fun o ho => by rw [hB, Function.update_self] at ho; exact ho.shows
  have g1 : ∀ {r : Nat} {P : Obj → Prop} {L : List Int} {s : St} {B : Env}, r < sp → At K (NV w (sp + 1) (Function.update B r P) L) (sp + 1 + 3) s → P (s.obj r) := by
    intro r P L s B hr h
    have := h.objs r (by omega); rwa [NV.lo (by omega), Function.update_self] at this
  obtain ⟨s7, e7, h7⟩ := cn_loadBin hw hK h6 rfl (r := sp + 2) (i := 1) (by omega) (by omega) (le_refl _) msg rfl rfl
  have h7 : At K (NV w (sp + 1) B [(k : Int), (beVal msg : Int), (T : Int)]) (sp + 1 + 3) s7 := h7
  obtain ⟨zt, ht0⟩ := bt _ (by have := h7.objs t (by omega); rwa [NV.lo (by omega)] at this)
  obtain ⟨s8, e8, h8⟩ := ca_leaf hK h7 (r := t) (by omega) (mul_leaf (x := d) (y := r) hw.pos ht0.r (shows_rs (Src.get (Src.arg (by omega) bd) h7)) (shows_rs (Src.get (Src.arg (by omega) br) h7)) (by omega) (by omega) (by omega) (Or.inl rfl))
  obtain ⟨s9, e9, h9⟩ := ca_leaf hK h8 (r := t) (by omega) (sub_leaf hw0 (x := sp + 2) (g1 ht h8) (Src.get (Src.loc (x := sp + 2) (j := 1) (by omega) (by omega)) h8) (g1 ht h8).shows)
  rw [Function.update_idem] at h9
  obtain ⟨s10, e10, h10⟩ := ca_leaf hK h9 (r := t) (by omega) (mod_leaf hw (m := sp + 3) (g1 ht h9).shows (Src.get (Src.loc (x := sp + 3) (j := 2) (by omega) (by omega)) h9) (by omega) (by omega)
    (show (0 : Int) < T by omega) (by omega) (g1 ht h9).any (Or.inr (by omega)))
  rw [Function.update_idem] at h10
  obtain ⟨i1, i2⟩ := cn_inv (S := sp + 1 + 3) rfl hw hK h10 rfl (r := sp + 1) (i := 0) rfl (by omega) (x := sp + 1) (Src.loc (j := 0) rfl (by omega)) (Src.loc (x := sp + 3) (j := 2) (by omega) (by omega))
    (show (0 : Int) < T by omega) (by omega)
  have hgd : Int.gcd ([(k : Int), (beVal msg : Int), (T : Int)].getD 0 0) ([(k : Int), (beVal msg : Int), (T : Int)].getD 2 0) = Nat.gcd k T := by
    show Int.gcd (k : Int) (T : Int) = _
    rw [Int.gcd_natCast_natCast]
  rw [hgd] at i1 i2
  have fin : ∀ {Q : Obj → Prop} {L : List Int} {s' : St}, At K (NV w (sp + 1) (Function.update B t Q) L) (sp + 1 + 3) s' →
      ∃ s'', clearList [sp + 1, sp + 2, sp + 3] s' = .ok ((), s'') ∧ At K (Function.update (Function.update A r (V w R 0)) t Q) sp s'' := by
    intro Q L s' h
    obtain ⟨s'', e, h'⟩ := clearList_calm h hlist
    refine ⟨s'', e, ?_⟩
    rw [hB, hC, Function.update_comm (show sp ≠ r by omega), Function.update_comm (show sp ≠ t by omega)] at h'
    exact const_exit h'
  have pre : ∀ (c : M Int), (chk (copy (sp + 3) p) <|
        chk (sub (2 ^ w) (sp + 3) (sp + 3) sp) <|
        chk (elgamalSecret w (sp + 4) (sp + 1) (sp + 3) sp bss) <|
        chk (modExp w (sp + 4) r g (sp + 1) (some p)) <|
        chk (loadBin w (sp + 2) msg) <|
        chk (mul w (sp + 4) t d r) <|
        chk (sub (2 ^ w) t (sp + 2) t) <|
        chk (mod w (sp + 4) t t (sp + 3)) c) s2 = c s10 := fun c => by
    rw [chk_ok e3, chk_ok e4, chk_ok e5, chk_ok e6, chk_ok e7, chk_ok e8, chk_ok e9, chk_ok e10]
  by_cases hgc : Nat.gcd k T = 1
  · obtain ⟨s11, v, e11, ⟨v0, v1, v2⟩, h11⟩ := i1 hgc
    have h11 : At K (NV w (sp + 1) _ [v, (beVal msg : Int), (T : Int)]) (sp + 1 + 3) s11 := h11
    obtain ⟨s12, e12, h12⟩ := ca_leaf hK h11 (r := t) (by omega) (mul_leaf (y := sp + 1) hw.pos (g1 ht h11).r (shows_rs (g1 ht h11).shows) (shows_rs (Src.get (Src.loc (x := sp + 1) (j := 0) rfl (by omega)) h11)) (by omega) (by omega) (by omega) (Or.inl rfl))
    rw [Function.update_idem] at h12
    obtain ⟨s13, e13, h13⟩ := ca_leaf hK h12 (r := t) (by omega) (mod_leaf hw (m := sp + 3) (g1 ht h12).shows (Src.get (Src.loc (x := sp + 3) (j := 2) (by omega) (by omega)) h12) (by omega) (by omega)
      (show (0 : Int) < T by omega) (by omega) (g1 ht h12).any (Or.inr (by omega)))
    rw [Function.update_idem] at h13
    obtain ⟨s14, e14, h14⟩ := fin h13
    refine ⟨0, s14, ?_, Or.inr (Or.inr ⟨by omega, hgc, rfl, _, h14, Int.emod_nonneg _ (show (T : Int) ≠ 0 by omega), ?_, ?_⟩)⟩
    · have hc := (pre (chk (inv w (sp + 4) (sp + 1) (sp + 1) (sp + 3)) <|
          chk (mul w (sp + 4) t t (sp + 1)) <|
          chk (mod w (sp + 4) t t (sp + 3)) (pure 0))).trans (show _ = Out.ok ((0 : Int), s13) by rw [chk_ok e11, chk_ok e12, chk_ok e13]; rfl)
      rw [bind_ok hc, bind_ok e14]; rfl
    · rw [hTP]; exact Int.emod_lt_of_pos _ (show (0 : Int) < T by omega)
    · show (k : Int) * (((beVal msg : Int) - D * R) % T * v % T) + D * R ≡ beVal msg [ZMOD P - 1]
      rw [hTP]
      have a1 : (k : Int) * (((beVal msg : Int) - D * R) % T * v % T) ≡ k * (((beVal msg : Int) - D * R) * v) [ZMOD T] :=
        ((Int.mod_modEq _ _).trans ((Int.mod_modEq _ _).mul_right _)).mul_left _
      have a2 : (k : Int) * v ≡ 1 [ZMOD T] := v2
      have a3 := a2.mul_left ((beVal msg : Int) - D * R)
      rw [mul_one] at a3
      have a5 : (k : Int) * (((beVal msg : Int) - D * R) * v) = ((beVal msg : Int) - D * R) * (k * v) := by ring
      rw [a5] at a1
      have a4 := (a1.trans a3).add_right (D * R)
      rwa [sub_add_cancel] at a4
  · obtain ⟨s11, e11, h11⟩ := i2 hgc
    obtain ⟨s12, e12, h12⟩ := fin h11
    refine ⟨-1, s12, ?_, Or.inr (Or.inl ⟨by omega, hgc, rfl, h12.le fun v _ o ho => ?_⟩)⟩
    · have hc := (pre (chk (inv w (sp + 4) (sp + 1) (sp + 1) (sp + 3)) <|
          chk (mul w (sp + 4) t t (sp + 1)) <|
          chk (mod w (sp + 4) t t (sp + 3)) (pure 0))).trans (chk_fail e11 (by decide))
      rw [bind_ok hc, bind_ok e12]; rfl
    · by_cases hvt : v = t
      · subst hvt; rw [Function.update_self] at ho ⊢; exact ho.any
      · rw [Function.update_of_ne hvt] at ho ⊢; exact ho

end Verif.Mem
