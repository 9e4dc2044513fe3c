import Verif.Lemmas.Mem.Dsa
import Verif.Lemmas.Mem.Rand
/-! Signing with DSA in memory: what the functions do when no allocation fails. -/
namespace Verif.Mem
open Verif.Mpi

variable {w : Nat} {K : Ctx} {A : Env} {sp N : Nat} {s : St}

theorem bind_apply {α β : Type} (c : M α) (f : α → M β) (s : St) :
    (c >>= f) s = match c s with | .ok (a, s') => f a s' | .ub => .ub | .hang => .hang := rfl

theorem initList_one (a : Nat) : initList [a] = init a := by
  funext s
  show (init a >>= fun st => if st = 0 then initListLoop ([] ++ [a]) [] else (clearList [] >>= fun _ => pure st)) s = _
  rw [bind_apply]
  cases h : init a s with
  | ub => rfl
  | hang => rfl
  | ok p =>
    obtain ⟨st, s'⟩ := p
    dsimp only
    by_cases h0 : st = 0
    · subst h0; rw [if_pos rfl]; rfl
    · rw [if_neg h0]; rfl

theorem clearList_one (a : Nat) : clearList [a] = clear a := by
  funext s
  show (clear a >>= fun _ => clearList []) s = _
  rw [bind_apply]
  cases h : clear a s with
  | ub => rfl
  | hang => rfl
  | ok p => rfl

/-- The automatic constant 1. -/
theorem one_shows (hw : DigitWidth w) (al : Nat) : Obj.Shows w 1 ⟨some ⟨false, 1, al⟩, .mem false [some 1]⟩ := by
  have h : NatRep w ⟨false, [1]⟩ 1 := NatRep.one hw.pos
  exact ⟨⟨false, [1]⟩, h.wf, h.toInt, al, rfl, ⟨[], rfl⟩⟩

/-- The declaration of the constant and of other locals. -/
theorem const_at (h : At K (Locals sp A (· = Obj.fresh)) (sp + 1 + N) s) (al : Nat) :
    ∃ s', setObj sp ⟨some ⟨false, 1, al⟩, .mem false [some 1]⟩ s = .ok ((), s') ∧
      At K (Locals (sp + 1) (Function.update A sp (· = ⟨some ⟨false, 1, al⟩, .mem false [some 1]⟩)) (· = Obj.fresh)) (sp + 1 + N) s' := by
  have hf : s.obj sp = Obj.fresh := by
    have := h.objs sp (by omega); rwa [Locals.hi (le_refl _)] at this
  refine ⟨s.set sp ⟨some ⟨false, 1, al⟩, .mem false [some 1]⟩, rfl, (step_at (s' := s.set sp ⟨some ⟨false, 1, al⟩, .mem false [some 1]⟩) (P := (· = ⟨some ⟨false, 1, al⟩, .mem false [some 1]⟩)) h (r := sp) (by omega) ⟨fun v hv hvr => if_neg hvr, ?_, rfl, le_refl _⟩ (if_pos rfl)).le fun v hv o ho => ?_⟩
  · have e : (s.set sp ⟨some ⟨false, 1, al⟩, .mem false [some 1]⟩).obj sp = ⟨some ⟨false, 1, al⟩, .mem false [some 1]⟩ := if_pos rfl
    rw [e, hf]; rfl
  · by_cases h1 : v = sp
    · subst h1; rw [Function.update_self] at ho; rw [Locals.lo (by omega), Function.update_self]; exact ho
    · rw [Function.update_of_ne h1] at ho
      by_cases h2 : v < sp
      · rw [Locals.lo h2] at ho; rw [Locals.lo (by omega), Function.update_of_ne h1]; exact ho
      · rw [Locals.hi (by omega)] at ho; rw [Locals.hi (by omega)]; exact ho

/-- The end of the constant. -/
theorem const_exit {al : Nat} (h : At K (Function.update A sp (· = ⟨some ⟨false, 1, al⟩, .mem false [some 1]⟩)) (sp + 1) s) : At K A sp s :=
  (exit_at h fun v h1 h2 o ho => by
    obtain rfl : v = sp := by omega
    rw [Function.update_self] at ho; rw [ho]; rfl).le fun v hv o ho => by rwa [Function.update_of_ne (by omega)] at ho

/-- The secret number made from the bytes of the generator. -/
def secretVal (Q : Nat) (bs : List Byte) : Nat := (beVal bs % 2 ^ (Q.size - 1) + 2 ^ (Q.size - 1)) % (Q - 1) + 1

theorem dsaSecret_calm (hw : DigitWidth w) (hK : K.Calm) (h : At K A sp s) {k q Q : Nat} {z : Int} (hk : k < sp) (hq : q < sp) (hkq : k ≠ q)
    (ak : ∀ o, A k o → V w z 0 o) (hz : 0 ≤ z) (aq : ∀ o, A q o → o.Shows w Q) (hQ : 1 < Q) (bs : List Byte)
    (hl : bs.length = (Q.size + 7) / 8) (hV : (2 ^ w) ^ ((Q.size - 1) / w) ≤ beVal bs) :
    ∃ s', dsaSecret w sp k q bs s = .ok (0, s') ∧ At K (Function.update A k (V w (secretVal Q bs) 0)) sp s' := by
  have hw0 : 0 < w := by have := hw.pos; omega
  have hb : 0 < Q.size := Nat.size_pos.2 (by omega)
  obtain ⟨s0, e0, h0⟩ := decl_run h 2
  unfold dsaSecret
  rw [bind_ok e0]
  obtain ⟨s1, e1, h1⟩ := const_at (N := 1) h0 0
  rw [bind_ok e1, ← initList_one, ← clearList_one]
  set C : Env := Function.update A sp (· = ⟨some ⟨false, 1, 0⟩, .mem false [some 1]⟩) with hC
  have hlist : ∀ v, v ∈ [sp + 1] ↔ sp + 1 ≤ v ∧ v < sp + 1 + 1 := by intro v; simp only [List.mem_singleton]; omega
  obtain ⟨s2, e2, h2⟩ := initList_calm hw0 hK h1 hlist (by simp)
  rw [chk_ok e2]
  have c1 : ∀ o, C sp o → o.Shows w 1 := fun o ho => by rw [hC, Function.update_self] at ho; rw [ho]; exact one_shows hw 0
  have cq : ∀ o, C q o → o.Shows w Q := fun o ho => by rw [hC, Function.update_of_ne (by omega)] at ho; exact aq o ho
  have ck : ∀ o, C k o → V w z 0 o := fun o ho => by rw [hC, Function.update_of_ne (by omega)] at ho; exact ak o ho
  obtain ⟨s3, e3, h3⟩ := cn_copy hK h2 (by simp) (r := sp + 1) (i := 0) rfl (by omega) (x := q) (Src.arg (by omega) cq) rfl
  obtain ⟨s4, e4, h4⟩ := cn_sub hw hK h3 (by simp) (r := sp + 1) (i := 0) rfl (by omega) (Src.loc (x := sp + 1) (j := 0) rfl (by omega)) (Src.arg (x := sp) (by omega) c1) rfl rfl
  have h4 : At K (NV w (sp + 1) C [(Q : Int) - 1]) (sp + 1 + 1) s4 := h4
  have e5 := countBits_shows hw (v := q) (s := s4) (M := Q) (Src.get (Src.arg (by omega) cq) h4)
  obtain ⟨s6, e6, h6⟩ := ca_leaf hK h4 (r := k) (by omega) (rand_leaf hw (ck _ (by have := h4.objs k (by omega); rwa [NV.lo (by omega)] at this)) hz bs hl hb hV)
  set X : Nat := beVal bs % 2 ^ (Q.size - 1) + 2 ^ (Q.size - 1) with hX
  have gk : ∀ {P : Obj → Prop} {L : List Int} {s : St} {B : Env}, At K (NV w (sp + 1) (Function.update B k P) L) (sp + 1 + 1) s → P (s.obj k) := by
    intro P L s B h
    have := h.objs k (by omega); rwa [NV.lo (by omega), Function.update_self] at this
  obtain ⟨s7, e7, h7⟩ := ca_leaf hK h6 (r := k) (by omega) (mod_leaf hw (m := sp + 1) (gk h6).shows (Src.get (Src.loc (x := sp + 1) (j := 0) rfl (by omega)) h6) (by omega) (by omega)
    (show (0 : Int) < (Q : Int) - 1 by omega) (by omega) (gk h6).any (Or.inr (by omega)))
  rw [Function.update_idem] at h7
  obtain ⟨s8, e8, h8⟩ := ca_leaf hK h7 (r := k) (by omega) (add_leaf hw0 (gk h7) (gk h7).shows (Src.get (Src.argKeep (x := sp) (by omega) (by omega) c1) h7))
  rw [Function.update_idem] at h8
  obtain ⟨s9, e9, h9⟩ := clearList_calm h8 hlist
  have hc : (lose (copy (sp + 1) q) <| lose (sub (2 ^ w) (sp + 1) (sp + 1) sp) do
        let n ← countBits w q
        lose (rand w k n bs) <|
        lose (mod w (sp + 2) k k (sp + 1)) <|
        lose (add (2 ^ w) k k sp) (pure 0)) s2 = .ok (0, s8) := by
    rw [lose_ok e3, lose_ok e4, bind_ok e5, lose_ok e6, lose_ok e7, lose_ok e8]; rfl
  refine ⟨s9, by rw [bind_ok hc, bind_ok e9]; rfl, ?_⟩
  have hv : ((X : Int) % [(Q : Int) - 1].getD 0 0 + 1) = (secretVal Q bs : Int) := by
    unfold secretVal
    show (X : Int) % ((Q : Int) - 1) + 1 = _
    rw [← hX]; push_cast [Nat.cast_sub (show 1 ≤ Q by omega)]; rfl
  rw [hv, hC, Function.update_comm (by omega)] at h9
  exact const_exit h9

/-- Verification succeeds on what the signing equation describes. -/
theorem dsa_equation_of_sign {p q g x k z r t : Nat} (hp : 1 < p) (hq : q.Prime) (ho : g ^ q ≡ 1 [MOD p]) (ht : t < q) (ht0 : t ≠ 0)
    (hr : g ^ k % p % q = r) (hk : k * t ≡ z + x * r [MOD q]) : Dsa.Equation p q (g : Int) ((g ^ x % p : Nat) : Int) z (r : Int) (t : Int) := by
  have hcop : Nat.Coprime t q := (Nat.coprime_of_lt_prime (by omega) ht hq).symm
  have hq1 := hq.one_lt
  obtain ⟨v, -, hv⟩ := Nat.exists_mul_mod_eq_one_of_coprime hcop hq1
  have hv' : t * v ≡ 1 [MOD q] := by
    show t * v % q = 1 % q
    rw [hv, Nat.mod_eq_of_lt hq1]
  refine ⟨v, by exact_mod_cast (Int.natCast_modEq_iff.2 hv'), ?_⟩
  have hkv : z * v + x * (r * v) ≡ k [MOD q] := by
    have a := (hk.symm.mul_right v)
    rw [Nat.add_mul] at a
    have b := hv'.mul_left k
    rw [mul_one] at b
    rw [show z * v + x * (r * v) = z * v + x * r * v by ring]
    refine a.trans ?_
    rw [show k * t * v = k * (t * v) by ring]
    exact b
  have hexp : g ^ (z * v % q) * (g ^ x % p) ^ (r * v % q) ≡ g ^ k [MOD p] := by
    have a : (g ^ x % p) ^ (r * v % q) ≡ g ^ (x * (r * v % q)) [MOD p] := by
      rw [pow_mul]; exact (Nat.mod_modEq _ _).pow _
    refine (a.mul_left _).trans ?_
    rw [← pow_add]
    apply Dsa.pow_congr ho
    exact (((Nat.mod_modEq _ _).add ((Nat.mod_modEq _ _).mul_left x))).trans hkv
  have e1 : ((r : Int) * v % q).toNat = r * v % q := by
    rw [show (r : Int) * v % q = ((r * v % q : Nat) : Int) by push_cast; rfl, Int.toNat_natCast]
  rw [e1, abs_of_nonneg (by omega)]
  have e2 : (g ^ (z * v % q) * (g ^ x % p) ^ (r * v % q)) % p % q = r := by
    rw [show (g ^ (z * v % q) * (g ^ x % p) ^ (r * v % q)) % p = g ^ k % p from hexp, hr]
  exact_mod_cast e2

theorem dsaSign_calm (hw : DigitWidth w) (hK : K.Calm) (h : At K A sp s) {p q g pvt r t : Nat} {P Q : Nat} {G D : Int}
    (hp : p < sp) (hq : q < sp) (hg : g < sp) (hd : pvt < sp) (hr : r < sp) (ht : t < sp)
    (rp : r ≠ p) (rq : r ≠ q) (rg : r ≠ g) (rd : r ≠ pvt) (rt : r ≠ t) (tq : t ≠ q)
    (ap : ∀ o, A p o → o.Shows w P) (aq : ∀ o, A q o → o.Shows w Q) (ag : ∀ o, A g o → o.Shows w G) (ad : ∀ o, A pvt o → o.Shows w D)
    (ar : ∀ o, A r o → Any w o) (at' : ∀ o, A t o → Any w o) (hP : 1 < P) (hQ : Q.Prime) (msg bs : List Byte)
    (hl : bs.length = (Q.size + 7) / 8) (hV : (2 ^ w) ^ ((Q.size - 1) / w) ≤ beVal bs) :
    ∃ s' T, dsaSign w sp p q g pvt r t msg bs s = .ok (0, s') ∧
      At K (Function.update (Function.update A r (V w (G ^ secretVal Q bs % P % Q) 0)) t (V w T 0)) sp s' ∧ 0 ≤ T ∧ T < Q ∧
      secretVal Q bs * T ≡ cutVal w Q msg + D * (G ^ secretVal Q bs % P % Q) [ZMOD Q] := by
  have hw0 : 0 < w := by have := hw.pos; omega
  have hQ1 := hQ.one_lt
  obtain ⟨s0, e0, h0⟩ := decl_run h 2
  unfold dsaSign
  rw [bind_ok e0]
  have hlist : ∀ v, v ∈ [sp, sp + 1] ↔ sp ≤ v ∧ v < sp + 2 := by
    intro v; simp only [List.mem_cons, List.not_mem_nil, or_false]; omega
  obtain ⟨s1, e1, h1⟩ := initList_calm hw0 hK h0 hlist (by simp)
  rw [chk_ok e1]
  obtain ⟨m, e2, hm⟩ := cutMsg_run hw0 (v := q) (s := s1) (n := Q) (aq _ (by have := h1.objs q (by omega); rwa [NV.lo hq] at this)) msg
  rw [bind_ok e2]
  set Z : Nat := cutVal w Q msg with hZ
  set k : Nat := secretVal Q bs with hk
  obtain ⟨s3, e3, h3⟩ := cn_loadBin hw hK h1 (by simp) (r := sp + 1) (i := 1) (by omega) (by omega) (by simp) m rfl rfl
  rw [hm] at h3
  have h3 : At K (NV w sp A [0, (Z : Int)]) (sp + 2) s3 := h3
  obtain ⟨s4, e4, h4⟩ := dsaSecret_calm hw hK h3 (k := sp) (q := q) (Q := Q) (z := 0) (by omega) (by omega) (by omega)
    (fun o ho => by have := NV.hi (w := w) (sp := sp) (i := 0) (A := A) (L := [0, (Z : Int)]); rw [Nat.add_zero] at this; rw [this] at ho; exact ho)
    (le_refl _) (fun o ho => aq o (by rwa [NV.lo hq] at ho)) hQ1 bs hl hV
  have h4 : At K (NV w sp A [(k : Int), (Z : Int)]) (sp + 2) s4 := h4.le (Nums.set (Q := fun z => V w z 0) (i := 0) (L := [0, (Z : Int)]) (by simp))
  obtain ⟨s5, e5, h5⟩ := ca_leaf hK h4 (r := r) hr (modExp_v hw (b := g) (e := sp) (m := p) (hK.fails h4 _) (ar _ (by have := h4.objs r (by omega); rwa [NV.lo hr] at this))
    (Src.get (Src.arg hg ag) h4) (Src.get (Src.loc (x := sp) (j := 0) rfl (by omega)) h4) (Src.get (Src.arg hp ap) h4) (show (0 : Int) ≤ (k : Int) by omega) (show (1 : Int) < P by omega) (by omega) (by omega) (by omega) (by omega))
  have g1 : ∀ {r : Nat} {P : Obj → Prop} {L : List Int} {s : St} {B : Env}, r < sp → At K (NV w sp (Function.update B r P) L) (sp + 2) s → P (s.obj r) := by
    intro r P L s B hr h
    have := h.objs r (by omega); rwa [NV.lo hr, Function.update_self] at this
  rw [show ([(k : Int), (Z : Int)].getD 0 0).toNat = k from rfl] at h5
  obtain ⟨s6, e6, h6⟩ := ca_leaf hK h5 (r := r) hr (mod_leaf hw (m := q) (g1 hr h5).shows (Src.get (Src.argKeep hq rq.symm aq) h5) (by omega) (by omega)
    (show (0 : Int) < Q by omega) (by omega) (g1 hr h5).any (Or.inr rq.symm))
  rw [Function.update_idem] at h6
  set R : Int := G ^ k % P % Q with hR
  set B : Env := Function.update A r (V w R 0) with hB
  have bq : ∀ o, B q o → o.Shows w Q := fun o ho => aq o (by rwa [hB, Function.update_of_ne rq.symm] at ho)
  have bd : ∀ o, B pvt o → o.Shows w D := fun o ho => ad o (by rwa [hB, Function.update_of_ne rd.symm] at ho)
  have bt : ∀ o, B t o → Any w o := fun o ho => at' o (by rwa [hB, Function.update_of_ne rt.symm] at ho)
  have br : ∀ o, B r o → o.Shows w R := fun o ho => by rw [hB, Function.update_self] at ho; exact ho.shows
  have hk1 : 0 < k ∧ k < Q := by
    rw [hk]; unfold secretVal
    have := Nat.mod_lt (beVal bs % 2 ^ (Q.size - 1) + 2 ^ (Q.size - 1)) (show 0 < Q - 1 by omega)
    omega
  have hgc : Int.gcd ([(k : Int), (Z : Int)].getD 0 0) Q = 1 := by
    show Int.gcd (k : Int) Q = 1
    rw [Int.gcd_natCast_natCast]
    exact (Nat.coprime_of_lt_prime (by omega) hk1.2 hQ).symm
  obtain ⟨s7, v, e7, ⟨v0, v1, v2⟩, h7⟩ := (cn_inv (S := sp + 2) rfl hw hK h6 rfl (r := sp) (i := 0) rfl (by omega) (x := sp) (Src.loc (j := 0) rfl (by omega)) (Src.arg hq bq) (by omega) (by omega)).1 hgc
  have h7 : At K (NV w sp B [v, (Z : Int)]) (sp + 2) s7 := h7
  obtain ⟨zt, ht0⟩ := bt _ (by have := h7.objs t (by omega); rwa [NV.lo ht] at this)
  obtain ⟨s8, e8, h8⟩ := ca_leaf hK h7 (r := t) ht (mul_leaf (x := pvt) (y := r) hw.pos ht0.r (shows_rs (Src.get (Src.arg hd bd) h7)) (shows_rs (Src.get (Src.arg hr br) h7)) (by omega) (by omega) (by omega) (Or.inl rfl))
  obtain ⟨s9, e9, h9⟩ := ca_leaf hK h8 (r := t) ht (add_leaf hw0 (y := sp + 1) (g1 ht h8) (g1 ht h8).shows (Src.get (Src.loc (x := sp + 1) (j := 1) rfl (by omega)) h8))
  rw [Function.update_idem] at h9
  obtain ⟨s10, e10, h10⟩ := ca_leaf hK h9 (r := t) ht (mul_leaf (y := sp) hw.pos (g1 ht h9).r (shows_rs (g1 ht h9).shows) (shows_rs (Src.get (Src.loc (x := sp) (j := 0) rfl (by omega)) h9)) (by omega) (by omega) (by omega) (Or.inl rfl))
  rw [Function.update_idem] at h10
  obtain ⟨s11, e11, h11⟩ := ca_leaf hK h10 (r := t) ht (mod_leaf hw (m := q) (g1 ht h10).shows (Src.get (Src.argKeep hq tq.symm bq) h10) (by omega) (by omega)
    (show (0 : Int) < Q by omega) (by omega) (g1 ht h10).any (Or.inr tq.symm))
  rw [Function.update_idem] at h11
  obtain ⟨s12, e12, h12⟩ := clearList_calm h11 hlist
  have hc : (lose (loadBin w (sp + 1) m) <|
      lose (dsaSecret w (sp + 2) sp q bs) <|
      lose (modExp w (sp + 2) r g sp (some p)) <|
      lose (mod w (sp + 2) r r q) <|
      lose (inv w (sp + 2) sp sp q) <|
      lose (mul w (sp + 2) t pvt r) <|
      lose (add (2 ^ w) t t (sp + 1)) <|
      lose (mul w (sp + 2) t t sp) <|
      lose (mod w (sp + 2) t t q) (pure 0)) s1 = .ok (0, s11) := by
    rw [lose_ok e3, lose_ok e4, lose_ok e5, lose_ok e6, lose_ok e7, lose_ok e8, lose_ok e9, lose_ok e10, lose_ok e11]; rfl
  refine ⟨s12, _, by rw [bind_ok hc, bind_ok e12]; rfl, h12, Int.emod_nonneg _ (by omega), Int.emod_lt_of_pos _ (by omega), ?_⟩
  show (k : Int) * ((D * R + Z) * v % Q) ≡ Z + D * R [ZMOD Q]
  have a1 : (k : Int) * ((D * R + Z) * v % Q) ≡ k * ((D * R + Z) * v) [ZMOD Q] := (Int.mod_modEq _ _).mul_left _
  refine a1.trans ?_
  have a2 : (k : Int) * v ≡ 1 [ZMOD Q] := v2
  have a3 := a2.mul_left (D * R + Z)
  rw [mul_one] at a3
  rw [show (k : Int) * ((D * R + Z) * v) = (D * R + Z) * (k * v) by ring, add_comm (Z : Int)]
  exact a3

end Verif.Mem
