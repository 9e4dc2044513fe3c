import Verif.Lemmas.Mem.PrimeGen
import Verif.Spec.MemKeygen
/-! The generation of RSA keys in memory, when no allocation fails. -/
namespace Verif.Mem
open Verif.Mpi

variable {w : Nat} {K : Ctx} {A : Env} {sp : Nat} {s : St} {fuel : Nat}

theorem prime_calm_in {p half m : Nat} {draw : Nat → PrimeDraw} {z : Int} (hm : m ≠ 0) (hw : DigitWidth w) (hK : K.Calm) (h : At K A sp s) (hp : p < sp) (ap : ∀ o, A p o → V w z 0 o) (hz : 0 ≤ z)
    (hb : 0 < half) (h8 : half % 8 = 0) (hd : DrawsOk w half draw) (hf : half ≤ fuel) :
    ∃ st it s' x, prime w sp fuel p half m draw s = .ok ((st, it), s') ∧ At K (Function.update A p (V w (x : Nat) 0)) sp s' ∧
      ((st = 0 ∧ FirstIn m half draw x) ∨ (st = -1 ∧ NoneIn m half draw)) := by
  have hand : ¬ (half &&& 7 ≠ 0 ∨ half = 0) := by
    have : half &&& 7 = half % 8 := Nat.and_two_pow_sub_one_eq_mod half 3
    omega
  obtain ⟨st, it, s', e, h⟩ := primeLoop_calm hw hK hp hb h8 hd hf m 0 (-1) s z A h ap hz
  have hrun : prime w sp fuel p half m draw s = .ok ((if it = m then -1 else st, it), s') := by
    unfold prime
    rw [if_neg hand, bind_ok e]; rfl
  simp only [Nat.zero_add] at h
  rcases h with ⟨k, k1, k2, k3, k4, k5, k6⟩ | ⟨k1, k2, k3, k4⟩
  · by_cases hl : it = m
    · rw [if_pos hl] at hrun
      exact ⟨-1, it, s', _, hrun, k6, Or.inr ⟨rfl, fun j hj => k5 j (by omega)⟩⟩
    · rw [if_neg hl, k2] at hrun
      exact ⟨0, it, s', _, hrun, k6, Or.inl ⟨rfl, k, by omega, k4, k5, rfl⟩⟩
  · rw [if_pos k2] at hrun
    exact ⟨-1, it, s', _, hrun, k4 hm, Or.inr ⟨rfl, fun j hj => k3 j (by omega)⟩⟩

theorem prime_calm {p half : Nat} {draw : Nat → PrimeDraw} {z : Int} (hw : DigitWidth w) (hK : K.Calm) (h : At K A sp s) (hp : p < sp) (ap : ∀ o, A p o → V w z 0 o) (hz : 0 ≤ z)
    (hb : 0 < half) (h8 : half % 8 = 0) (hd : DrawsOk w half draw) (hf : half ≤ fuel) :
    ∃ st it s' x, prime w sp fuel p half 10000 draw s = .ok ((st, it), s') ∧ At K (Function.update A p (V w (x : Nat) 0)) sp s' ∧
      ((st = 0 ∧ FirstOk half draw x) ∨ (st = -1 ∧ NoneOk half draw)) :=
  prime_calm_in (by decide) hw hK h hp ap hz hb h8 hd hf

/-- The members of the context that are written. -/
def KB (w : Nat) (A : Env) (n e p q : Nat) (N E P Q : Int) : Env :=
  fun v => if v = n then V w N 0 else if v = e then V w E 0 else if v = p then V w P 0 else if v = q then V w Q 0 else A v

/-- Four different addresses below `sp`. -/
structure Four (sp n e p q : Nat) : Prop where
  ne : n ≠ e
  np : n ≠ p
  nq : n ≠ q
  ep : e ≠ p
  eq : e ≠ q
  pq : p ≠ q
  n : n < sp
  e : e < sp
  p : p < sp
  q : q < sp

section
variable {n e p q : Nat} {N E P Q z : Int}

theorem KB.getN : KB w A n e p q N E P Q n = V w N 0 := if_pos rfl
theorem KB.getE (h : Four sp n e p q) : KB w A n e p q N E P Q e = V w E 0 := by
  unfold KB; rw [if_neg h.ne.symm, if_pos rfl]
theorem KB.getP (h : Four sp n e p q) : KB w A n e p q N E P Q p = V w P 0 := by
  unfold KB; rw [if_neg h.np.symm, if_neg h.ep.symm, if_pos rfl]
theorem KB.getQ (h : Four sp n e p q) : KB w A n e p q N E P Q q = V w Q 0 := by
  unfold KB; rw [if_neg h.nq.symm, if_neg h.eq.symm, if_neg h.pq.symm, if_pos rfl]
theorem KB.setN : Function.update (KB w A n e p q N E P Q) n (V w z 0) = KB w A n e p q z E P Q := by
  funext v; unfold KB
  by_cases h1 : v = n
  · subst h1; simp
  · simp [Function.update_of_ne h1, h1]
theorem KB.setE (h : Four sp n e p q) : Function.update (KB w A n e p q N E P Q) e (V w z 0) = KB w A n e p q N z P Q := by
  funext v
  by_cases h1 : v = e
  · subst h1; rw [Function.update_self, KB.getE h]
  · rw [Function.update_of_ne h1]; unfold KB; simp [h1]
theorem KB.setP (h : Four sp n e p q) : Function.update (KB w A n e p q N E P Q) p (V w z 0) = KB w A n e p q N E z Q := by
  funext v
  by_cases h1 : v = p
  · subst h1; rw [Function.update_self, KB.getP h]
  · rw [Function.update_of_ne h1]; unfold KB; simp [h1]
theorem KB.setQ (h : Four sp n e p q) : Function.update (KB w A n e p q N E P Q) q (V w z 0) = KB w A n e p q N E P z := by
  funext v
  by_cases h1 : v = q
  · subst h1; rw [Function.update_self, KB.getQ h]
  · rw [Function.update_of_ne h1]; unfold KB; simp [h1]

/-- The state inside the loop. -/
def KS (w sp : Nat) (A : Env) (n e p q : Nat) (N E P Q a b g f : Int) : Env :=
  NV w (sp + 1) (Function.update (KB w A n e p q N E P Q) sp (· = ⟨some ⟨false, 1, 1⟩, .mem false [some 1]⟩)) [a, b, g, f]

variable {a b g f : Int}

theorem KS.arg {v : Nat} {s : St} (h : At K (KS w sp A n e p q N E P Q a b g f) (sp + 1 + 4) s) (hv : v < sp) : KB w A n e p q N E P Q v (s.obj v) := by
  have := h.objs v (by omega)
  unfold KS at this
  rwa [NV.lo (by omega), Function.update_of_ne (by omega)] at this
theorem KS.upd {v : Nat} {s : St} {N' E' P' Q' : Int} (hv : v < sp)
    (h : At K (Function.update (KS w sp A n e p q N E P Q a b g f) v (V w z 0)) (sp + 1 + 4) s)
    (hu : Function.update (KB w A n e p q N E P Q) v (V w z 0) = KB w A n e p q N' E' P' Q') : At K (KS w sp A n e p q N' E' P' Q' a b g f) (sp + 1 + 4) s := by
  have := h.le (Nums.set_arg (Q := fun z => V w z 0) (S := sp + 1 + 4) (show v < sp + 1 by omega))
  rw [Function.update_comm (by omega), hu] at this
  exact this
theorem KS.one {s : St} (hw : DigitWidth w) (h : At K (KS w sp A n e p q N E P Q a b g f) (sp + 1 + 4) s) : (s.obj sp).Shows w 1 := by
  have := h.objs sp (by omega)
  unfold KS at this
  rw [NV.lo (by omega), Function.update_self] at this
  rw [this]; exact one_shows hw 1

/-- The numbers accepted are not small. -/
theorem firstOk_gt {half : Nat} {draw : Nat → PrimeDraw} {x : Nat} (hb : 0 < half) (h8 : half % 8 = 0) (hd : DrawsOk w half draw) (h : FirstOk half draw x) : 1 < x := by
  obtain ⟨k, -, -, -, rfl⟩ := h
  have hlt : beVal (draw k).bytes < 2 ^ half := by
    have := beVal_lt (draw k).bytes
    rwa [(hd k).1, show 256 = 2 ^ 8 by rfl, ← pow_mul, show 8 * (half / 8) = half by omega] at this
  have hs := cand_size (bits := half) (by omega) hlt
  by_contra hc
  have : (Spec.primeCandidate half (beVal (draw k).bytes)).size ≤ 1 := by rw [Nat.size_le]; omega
  omega

variable {bits : Nat} {ev : Int}

theorem rsaTurn_calm (hw : DigitWidth w) (hK : K.Calm) (hA : Four sp n e p q) (hb : 0 < bits / 2) (h8 : bits / 2 % 8 = 0) (hf : bits ≤ fuel)
    {dr : RsaDraw} (hd : RsaDrawOk w bits dr) (hev : 0 ≤ ev) (hP : 0 ≤ P) (hQ : 0 ≤ Q) (hE : 0 ≤ E) (hE' : ev ≠ 0 → E = ev) (hg : g ≠ 1)
    (h : At K (KS w sp A n e p q N E P Q a b g f) (sp + 1 + 4) s) :
    ∃ st c s' N' E' P' Q' a' b' g' f', rsaTurn w sp fuel n e p q bits ev dr s = .ok ((st, c), s') ∧ At K (KS w sp A n e p q N' E' P' Q' a' b' g' f') (sp + 1 + 4) s' ∧
      0 ≤ P' ∧ 0 ≤ Q' ∧ 0 ≤ E' ∧ (ev ≠ 0 → E' = ev) ∧
      ((st = 0 ∧ c = true ∧ g' = 1 ∧ ∃ x y, KeyFound bits ev dr x y ∧ P' = x ∧ Q' = y ∧ N' = (x * y : Nat) ∧ E' = pubExp bits ev dr) ∨
       (st = 0 ∧ c = true ∧ g' ≠ 1 ∧ KeyRetry bits ev dr) ∨
       (st = -1 ∧ c = false ∧ KeyFail bits dr)) := by
  have hw0 : 0 < w := by have := hw.pos; omega
  have hsh : bits >>> 1 = bits / 2 := by rw [Nat.shiftRight_eq_div_pow, pow_one]
  have S5 : sp + 5 = sp + 1 + 4 := by omega
  have hp' := hA.p; have hq' := hA.q; have hn' := hA.n; have he' := hA.e
  have lowP : ∀ o, KS w sp A n e p q N E P Q a b g f p o → V w P 0 o := fun o ho => by
    unfold KS at ho; rwa [NV.lo (by omega), Function.update_of_ne (by omega), KB.getP hA] at ho
  unfold rsaTurn
  rw [hsh, S5]
  obtain ⟨st1, it1, s1, x, e1, h1, c1⟩ := prime_calm hw hK h (by omega) lowP hP hb h8 hd.p (by omega : bits / 2 ≤ fuel)
  have h1 := KS.upd (by omega) h1 (KB.setP hA)
  rw [bind_ok e1]
  rcases c1 with ⟨rfl, c1⟩ | ⟨rfl, c1⟩
  swap
  · exact ⟨-1, false, s1, N, E, x, Q, a, b, g, f, rfl, h1, by positivity, hQ, hE, hE', Or.inr (Or.inr ⟨rfl, rfl, Or.inl c1⟩)⟩
  have lowQ : ∀ o, KS w sp A n e p q N E x Q a b g f q o → V w Q 0 o := fun o ho => by
    unfold KS at ho; rwa [NV.lo (by omega), Function.update_of_ne (by omega), KB.getQ hA] at ho
  obtain ⟨st2, it2, s2, y, e2, h2, c2⟩ := prime_calm hw hK h1 (by omega) lowQ hQ hb h8 hd.q (by omega : bits / 2 ≤ fuel)
  have h2 := KS.upd (by omega) h2 (KB.setQ hA)
  rw [if_neg (by simp), bind_ok e2]
  rcases c2 with ⟨rfl, c2⟩ | ⟨rfl, c2⟩
  swap
  · exact ⟨-1, false, s2, N, E, x, y, a, b, g, f, rfl, h2, by positivity, by positivity, hE, hE', Or.inr (Or.inr ⟨rfl, rfl, Or.inr ⟨⟨x, c1⟩, c2⟩⟩)⟩
  rw [if_neg (by simp)]
  have hx1 := firstOk_gt hb h8 hd.p c1
  have hy1 := firstOk_gt hb h8 hd.q c2
  have hpair : Pair bits dr x y := ⟨c1, c2⟩
  have shp : ∀ {N E a b g f : Int} {s : St}, At K (KS w sp A n e p q N E x y a b g f) (sp + 1 + 4) s → (s.obj p).Shows w x := fun h => by
    have := KS.arg h hA.p; rw [KB.getP hA] at this; exact this.shows
  have shq : ∀ {N E a b g f : Int} {s : St}, At K (KS w sp A n e p q N E x y a b g f) (sp + 1 + 4) s → (s.obj q).Shows w y := fun h => by
    have := KS.arg h hA.q; rw [KB.getQ hA] at this; exact this.shows
  rw [bind_ok (cmp_eval (shq h2) (shp h2))]
  by_cases hxy : x = y
  · rw [if_pos (by subst hxy; simp)]
    exact ⟨0, true, s2, N, E, x, y, a, b, g, f, rfl, h2, by positivity, by positivity, hE, hE', Or.inr (Or.inl ⟨rfl, rfl, hg, x, y, hpair, Or.inl hxy⟩)⟩
  have hc : ¬ (if (y : Int) < x then (-1 : Int) else if (y : Int) = x then 0 else 1) = 0 := by split_ifs <;> first | omega | decide
  rw [if_neg hc]
  have vn := KS.arg h2 hA.n
  rw [KB.getN] at vn
  obtain ⟨s3, e3, h3⟩ := calm_leaf hK h2 (r := n) (by omega) (mul_leaf hw.pos vn.r (shows_rs (shp h2)) (shows_rs (shq h2)) (by omega) (by omega) (by omega) (Or.inl rfl))
  have h3 := KS.upd (by omega) h3 KB.setN
  rw [bind_ok e3, if_neg (by simp)]
  have hmul : ((x : Int) * y) = ((x * y : Nat) : Int) := by push_cast; rfl
  rw [hmul] at h3
  have shn : (s3.obj n).Shows w ((x * y : Nat) : Int) := by have := KS.arg h3 hA.n; rw [KB.getN] at this; exact this.shows
  rw [bind_ok (countBits_shows hw shn)]
  by_cases hsz : (x * y).size = bits
  swap
  · rw [if_pos hsz]
    exact ⟨0, true, s3, _, E, x, y, a, b, g, f, rfl, h3, by positivity, by positivity, hE, hE', Or.inr (Or.inl ⟨rfl, rfl, hg, x, y, hpair, Or.inr (Or.inl hsz)⟩)⟩
  rw [if_neg (by simpa using hsz)]
  have h3' := h3
  unfold KS at h3'
  set C := Function.update (KB w A n e p q ((x * y : Nat) : Int) E x y) sp (· = (⟨some ⟨false, 1, 1⟩, .mem false [some 1]⟩ : Obj)) with hC
  have c1' : ∀ o, C sp o → o.Shows w 1 := fun o ho => by rw [hC, Function.update_self] at ho; rw [ho]; exact one_shows hw 1
  have cp : ∀ o, C p o → o.Shows w x := fun o ho => by rw [hC, Function.update_of_ne (by omega), KB.getP hA] at ho; exact ho.shows
  have cq : ∀ o, C q o → o.Shows w y := fun o ho => by rw [hC, Function.update_of_ne (by omega), KB.getQ hA] at ho; exact ho.shows
  obtain ⟨s4, e4, h4⟩ := cn_sub hw hK h3' (by simp) (r := sp + 1) (i := 0) rfl (by omega) (Src.arg (x := p) (by omega) cp) (Src.arg (x := sp) (by omega) c1') rfl rfl
  obtain ⟨s5, e5, h5⟩ := cn_sub hw hK h4 (by simp) (r := sp + 2) (i := 1) (by omega) (by omega) (Src.arg (x := q) (by omega) cq) (Src.arg (x := sp) (by omega) c1') rfl rfl
  have h5 : At K (NV w (sp + 1) C [(x : Int) - 1, (y : Int) - 1, g, f]) (sp + 1 + 4) s5 := h5
  obtain ⟨s6, e6, h6⟩ := cn_mul (S := sp + 1 + 4) rfl hw hK h5 (by simp) (r := sp + 4) (i := 3) (by omega) (by omega) (Src.loc (x := sp + 1) (j := 0) rfl (by omega))
    (Src.loc (x := sp + 2) (j := 1) (by omega) (by omega)) rfl rfl
  have h6 : At K (KS w sp A n e p q ((x * y : Nat) : Int) E x y ((x : Int) - 1) ((y : Int) - 1) g (((x : Int) - 1) * ((y : Int) - 1))) (sp + 1 + 4) s6 := h6
  have hphi : ((x : Int) - 1) * ((y : Int) - 1) = (((x - 1) * (y - 1) : Nat) : Int) := by
    push_cast [Nat.cast_sub (show 1 ≤ x by omega), Nat.cast_sub (show 1 ≤ y by omega)]; rfl
  have hphi0 : 0 < (x - 1) * (y - 1) := Nat.mul_pos (by omega) (by omega)
  rw [hphi] at h6
  have h7 : ∃ s7, (if ev = 0 then rand w e bits dr.e else pure 0 : M Int) s6 = .ok (0, s7) ∧
      At K (KS w sp A n e p q ((x * y : Nat) : Int) (pubExp bits ev dr : Nat) x y ((x : Int) - 1) ((y : Int) - 1) g (((x - 1) * (y - 1) : Nat) : Int)) (sp + 1 + 4) s7 := by
    unfold pubExp
    by_cases h0 : ev = 0
    · rw [if_pos h0, if_pos h0]
      have ve := KS.arg h6 hA.e
      rw [KB.getE hA] at ve
      obtain ⟨s7, e7, h7⟩ := calm_leaf hK h6 (r := e) (by omega) (rand_leaf hw ve hE dr.e hd.e.1 (by omega) hd.e.2)
      exact ⟨s7, e7, KS.upd (by omega) h7 (KB.setE hA)⟩
    · rw [if_neg h0, if_neg h0]
      refine ⟨s6, rfl, ?_⟩
      rw [Int.toNat_of_nonneg hev, ← hE' h0]; exact h6
  obtain ⟨s7, e7, h7⟩ := h7
  set X := pubExp bits ev dr with hX
  have hX0 : 0 < X := by
    rw [hX]; unfold pubExp
    split_ifs with h0
    · have := Nat.two_pow_pos (bits - 1); omega
    · omega
  have h7' := h7
  unfold KS at h7'
  set D := Function.update (KB w A n e p q ((x * y : Nat) : Int) X x y) sp (· = (⟨some ⟨false, 1, 1⟩, .mem false [some 1]⟩ : Obj)) with hD
  have se : (s7.obj e).Shows w X := by have := KS.arg h7 hA.e; rw [KB.getE hA] at this; exact this.shows
  obtain ⟨s8, e8, h8'⟩ := cn_leaf (z := ((Nat.gcd X ((x - 1) * (y - 1)) : Nat) : Int)) hK h7' (i := 2) (by omega) (by simp)
    ((gcd_leaf hw (r := sp + 1 + 2) (x := e) (y := sp + 4) (Nums.val h7' (by omega)).any se (Src.get (Src.loc (x := sp + 4) (j := 3) (by omega) (by omega)) h7')
      (by omega) (by show (((x - 1) * (y - 1) : Nat) : Int) ≠ 0; omega) (by omega) (by omega) (by omega)).mono (fun o ho => by
        obtain ⟨z, z1, z2, z3⟩ := ho
        have z3 := z3 (by show (0 : Int) < (((x - 1) * (y - 1) : Nat) : Int); omega)
        have z2 : z.natAbs = Nat.gcd X ((x - 1) * (y - 1)) := z2
        have : z = ((Nat.gcd X ((x - 1) * (y - 1)) : Nat) : Int) := by omega
        rw [← this]; exact z1) (fun o ho => ho)) rfl
  have h8' : At K (KS w sp A n e p q ((x * y : Nat) : Int) X x y ((x : Int) - 1) ((y : Int) - 1) ((Nat.gcd X ((x - 1) * (y - 1)) : Nat) : Int) (((x - 1) * (y - 1) : Nat) : Int)) (sp + 1 + 4) s8 := h8'
  rw [show sp + 3 = sp + 1 + 2 by omega]
  have hrun : (chk (sub (2 ^ w) (sp + 1) p sp) <| chk (sub (2 ^ w) (sp + 2) q sp) <|
              chk (mul w (sp + 1 + 4) (sp + 4) (sp + 1) (sp + 2)) <|
              chk (if ev = 0 then rand w e bits dr.e else pure 0) <|
              chk (gcd w (sp + 1 + 4) (sp + 1 + 2) e (sp + 4)) (pure 0)) s3 = .ok (0, s8) := by
    rw [chk_ok e4, chk_ok e5, chk_ok e6, chk_ok e7, chk_ok e8]; rfl
  rw [bind_ok hrun]
  by_cases hgcd : Nat.gcd X ((x - 1) * (y - 1)) = 1
  · refine ⟨0, true, s8, _, _, _, _, _, _, _, _, rfl, h8', by positivity, by positivity, by positivity, fun h => ?_, Or.inl ⟨rfl, rfl, by rw [hgcd]; rfl, x, y,
      ⟨hpair, hxy, hsz, hgcd⟩, rfl, rfl, rfl, rfl⟩⟩
    rw [hX]; unfold pubExp; rw [if_neg h, Int.toNat_of_nonneg hev]
  · refine ⟨0, true, s8, _, _, _, _, _, _, _, _, rfl, h8', by positivity, by positivity, by positivity, fun h => ?_, Or.inr (Or.inl ⟨rfl, rfl, ?_, x, y, hpair, Or.inr (Or.inr hgcd)⟩)⟩
    · rw [hX]; unfold pubExp; rw [if_neg h, Int.toNat_of_nonneg hev]
    · exact_mod_cast hgcd

theorem rsaKeyLoop_calm (hw : DigitWidth w) (hK : K.Calm) (hA : Four sp n e p q) (hb : 0 < bits / 2) (h8 : bits / 2 % 8 = 0) (hf : bits ≤ fuel)
    {draw : Nat → RsaDraw} (hd : ∀ j, RsaDrawOk w bits (draw j)) (hev : 0 ≤ ev) : ∀ (m j : Nat) (s : St) (N E P Q a b g f : Int), 0 ≤ P → 0 ≤ Q → 0 ≤ E → (ev ≠ 0 → E = ev) → g ≠ 1 →
    At K (KS w sp A n e p q N E P Q a b g f) (sp + 1 + 4) s →
    ∃ st s' N' E' P' Q' a' b' g' f', rsaKeyLoop w sp fuel n e p q bits ev draw m j s = .ok (st, s') ∧ At K (KS w sp A n e p q N' E' P' Q' a' b' g' f') (sp + 1 + 4) s' ∧
      ((st = 0 ∧ ∃ k x y, k < m ∧ (∀ i < k, KeyRetry bits ev (draw (j + i))) ∧ KeyFound bits ev (draw (j + k)) x y ∧
          P' = x ∧ Q' = y ∧ N' = (x * y : Nat) ∧ E' = pubExp bits ev (draw (j + k))) ∨
       (st = 0 ∧ ∀ i < m, KeyRetry bits ev (draw (j + i))) ∨
       (st = -1 ∧ ∃ k, k < m ∧ (∀ i < k, KeyRetry bits ev (draw (j + i))) ∧ KeyFail bits (draw (j + k))))
  | 0, j, s, N, E, P, Q, a, b, g, f, _, _, _, _, _, h => ⟨0, s, N, E, P, Q, a, b, g, f, rfl, h, Or.inr (Or.inl ⟨rfl, by simp⟩)⟩
  | m + 1, j, s, N, E, P, Q, a, b, g, f, hP, hQ, hE, hE', hg, h => by
    obtain ⟨st, c, s1, N', E', P', Q', a', b', g', f', e1, h1, i1, i2, i3, i4, c1⟩ := rsaTurn_calm hw hK hA hb h8 hf (hd j) hev hP hQ hE hE' hg h
    unfold rsaKeyLoop
    rw [bind_ok e1]
    have sg : (s1.obj (sp + 3)).Shows w g' := by
      have h1' := h1
      unfold KS at h1'
      exact Src.get (Src.loc (x := sp + 3) (j := 2) (by omega) (by omega)) h1'
    have e2 := cmp_eval sg (KS.one hw h1)
    rcases c1 with ⟨rfl, rfl, c, x, y, d⟩ | ⟨rfl, rfl, c, d⟩ | ⟨rfl, rfl, d⟩
    · rw [if_pos rfl, bind_ok e2, if_neg (by subst c; simp)]
      exact ⟨0, s1, N', E', P', Q', a', b', g', f', rfl, h1, Or.inl ⟨rfl, 0, x, y, by omega, by simp, d⟩⟩
    · have hc : (if g' < 1 then (-1 : Int) else if g' = 1 then 0 else 1) ≠ 0 := by split_ifs <;> first | omega | decide
      rw [if_pos rfl, bind_ok e2, if_pos hc]
      obtain ⟨st, s2, N2, E2, P2, Q2, a2, b2, g2, f2, e3, h3, c3⟩ := rsaKeyLoop_calm hw hK hA hb h8 hf hd hev m (j + 1) s1 N' E' P' Q' a' b' g' f' i1 i2 i3 i4 c h1
      have ext : ∀ {k : Nat}, (∀ i < k, KeyRetry bits ev (draw (j + 1 + i))) → ∀ i < k + 1, KeyRetry bits ev (draw (j + i)) := fun {k} h i hi => by
        cases i with
        | zero => exact d
        | succ i => rw [show j + (i + 1) = j + 1 + i by omega]; exact h i (by omega)
      refine ⟨st, s2, N2, E2, P2, Q2, a2, b2, g2, f2, e3, h3, ?_⟩
      rcases c3 with ⟨r, k, x, y, k1, k2, k3, k4⟩ | ⟨r, k2⟩ | ⟨r, k, k1, k2, k3⟩
      · exact Or.inl ⟨r, k + 1, x, y, by omega, ext k2, by rw [show j + (k + 1) = j + 1 + k by omega]; exact ⟨k3, k4⟩⟩
      · exact Or.inr (Or.inl ⟨r, ext k2⟩)
      · exact Or.inr (Or.inr ⟨r, k + 1, by omega, ext k2, by rw [show j + (k + 1) = j + 1 + k by omega]; exact k3⟩)
    · rw [if_neg (by simp)]
      exact ⟨-1, s1, N', E', P', Q', a', b', g', f', rfl, h1, Or.inr (Or.inr ⟨rfl, 0, by omega, by simp, d⟩)⟩

end

end Verif.Mem
