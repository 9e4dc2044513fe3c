import Verif.Lemmas.Mem.RsaGen
import Verif.Lemmas.Mem.Gcd
/-! The generation of DSA keys in memory, when no allocation fails. -/
namespace Verif.Mem
open Verif.Mpi

variable {w : Nat} {K : Ctx} {A : Env} {sp : Nat} {s : St} {fuel : Nat}

/-- The members of the context that the search writes. -/
def DB (w : Nat) (A : Env) (q p g : Nat) (Q P G : Int) : Env :=
  fun v => if v = q then V w Q 0 else if v = p then V w P 0 else if v = g then V w G 0 else A v

/-- Three different addresses below `sp`. -/
structure Three (sp q p g : Nat) : Prop where
  qp : q ≠ p
  qg : q ≠ g
  pg : p ≠ g
  ltq : q < sp
  ltp : p < sp
  ltg : g < sp

section
variable {q p g : Nat} {Q P G z : Int}

theorem DB.getQ : DB w A q p g Q P G q = V w Q 0 := if_pos rfl
theorem DB.getP (h : Three sp q p g) : DB w A q p g Q P G p = V w P 0 := by
  unfold DB; rw [if_neg h.qp.symm, if_pos rfl]
theorem DB.getG (h : Three sp q p g) : DB w A q p g Q P G g = V w G 0 := by
  unfold DB; rw [if_neg h.qg.symm, if_neg h.pg.symm, if_pos rfl]
theorem DB.other {v : Nat} (h1 : v ≠ q) (h2 : v ≠ p) (h3 : v ≠ g) : DB w A q p g Q P G v = A v := by
  unfold DB; rw [if_neg h1, if_neg h2, if_neg h3]
theorem DB.setQ : Function.update (DB w A q p g Q P G) q (V w z 0) = DB w A q p g z P G := by
  funext v
  by_cases h1 : v = q
  · subst h1; rw [Function.update_self, DB.getQ]
  · rw [Function.update_of_ne h1]; unfold DB; simp [h1]
theorem DB.setP (h : Three sp q p g) : Function.update (DB w A q p g Q P G) p (V w z 0) = DB w A q p g Q z G := by
  funext v
  by_cases h1 : v = p
  · subst h1; rw [Function.update_self, DB.getP h]
  · rw [Function.update_of_ne h1]; unfold DB; simp [h1]
theorem DB.setG (h : Three sp q p g) : Function.update (DB w A q p g Q P G) g (V w z 0) = DB w A q p g Q P z := by
  funext v
  by_cases h1 : v = g
  · subst h1; rw [Function.update_self, DB.getG h]
  · rw [Function.update_of_ne h1]; unfold DB; simp [h1]

variable {L : List Int}

theorem DB.srcQ (h : Three sp q p g) : Src w sp 4 (DB w A q p g Q P G) L q Q := Src.arg h.ltq fun o ho => by rw [DB.getQ] at ho; exact ho.shows
theorem DB.srcP (h : Three sp q p g) : Src w sp 4 (DB w A q p g Q P G) L p P := Src.arg h.ltp fun o ho => by rw [DB.getP h] at ho; exact ho.shows
theorem DB.srcG (h : Three sp q p g) : Src w sp 4 (DB w A q p g Q P G) L g G := Src.arg h.ltg fun o ho => by rw [DB.getG h] at ho; exact ho.shows

variable {bits : Nat} {a k r : Int}

theorem dsaCand_calm {Q : Nat} (hw : DigitWidth w) (hK : K.Calm) (hA : Three sp q p g) (h : At K (NV w sp (DB w A q p g Q P G) [a, k, r, 1]) (sp + 4) s)
    (hP : 0 ≤ P) (hQ : 0 < Q) (hb : 0 < bits) {bs : List Byte} (hl : bs.length = (bits + 7) / 8) (hV : (2 ^ w) ^ ((bits - 1) / w) ≤ beVal bs) :
    ∃ s' r', dsaCand w sp p q bits bs s = .ok (0, s') ∧ 0 ≤ r' ∧ At K (NV w sp (DB w A q p g Q (dsaP bits Q bs) G) [a, k, r', 1]) (sp + 4) s' := by
  have hw0 : 0 < w := by have := hw.pos; omega
  have hp' := hA.ltp
  have vp : ∀ {P : Int} {L : List Int} {s : St}, At K (NV w sp (DB w A q p g Q P G) L) (sp + 4) s → V w P 0 (s.obj p) := fun h => by
    have := Nums.arg h hA.ltp; rwa [DB.getP hA] at this
  obtain ⟨s1, e1, h1⟩ := ca_leaf hK h hA.ltp (rand_leaf hw (vp h) hP bs hl hb hV)
  rw [DB.setP hA] at h1
  set M := beVal bs % 2 ^ (bits - 1) + 2 ^ (bits - 1) with hM
  obtain ⟨s2, e2, h2⟩ := cn_add hw hK h1 rfl (r := sp + 2) (i := 2) rfl (by omega) (DB.srcQ hA) (DB.srcQ hA) rfl rfl
  have h2 : At K (NV w sp (DB w A q p g Q M G) [a, k, (Q : Int) + Q, 1]) (sp + 4) s2 := h2
  obtain ⟨s3, e3, h3⟩ := cn_leaf (z := (M : Int) % (Q + Q)) hK h2 (i := 2) (by omega) rfl
    (mod_leaf hw ((DB.srcP hA).get h2) (Src.get (Src.loc (x := sp + 2) (j := 2) rfl (by omega)) h2) (by omega) (by omega)
      (by show (0 : Int) < (Q : Int) + Q; omega) (by omega) (Nums.val h2 (by omega)).any (Or.inl (by omega))) rfl
  have h3 : At K (NV w sp (DB w A q p g Q M G) [a, k, (M : Int) % (Q + Q), 1]) (sp + 4) s3 := h3
  obtain ⟨s4, e4, h4⟩ := ca_leaf hK h3 hA.ltp (sub_leaf hw0 (vp h3) (vp h3).shows (Src.get (Src.loc (x := sp + 2) (j := 2) rfl (by omega)) h3))
  rw [DB.setP hA] at h4
  obtain ⟨s5, e5, h5⟩ := ca_leaf hK h4 hA.ltp (add_leaf hw0 (vp h4) (vp h4).shows (Src.get (Src.loc (x := sp + 3) (j := 3) rfl (by omega)) h4))
  rw [DB.setP hA] at h5
  refine ⟨s5, (M : Int) % (Q + Q), ?_, Int.emod_nonneg _ (by omega), ?_⟩
  · unfold dsaCand
    rw [chk_ok e1, chk_ok e2, chk_ok e3, chk_ok e4, chk_ok e5]; rfl
  · have hval : (M : Int) - [a, k, (M : Int) % (Q + Q), 1].getD 2 0 + [a, k, (M : Int) % (Q + Q), 1].getD 3 0 = (dsaP bits Q bs : Int) := by
      show (M : Int) - (M : Int) % (Q + Q) + 1 = _
      unfold dsaP
      rw [← hM]
      push_cast
      have := Int.mul_ediv_add_emod (M : Int) (2 * Q)
      rw [show (Q : Int) + Q = 2 * Q by ring]
      linarith [mul_comm ((M : Int) / (2 * Q)) (2 * Q)]
    rw [← hval]; exact h5

/-- The numbers tested are not 1, and fit. -/
theorem dsaP_bounds {Q : Nat} {bs : List Byte} (hQ : 0 < Q) (hb : 0 < bits) (hQb : 2 * Q ≤ 2 ^ (bits - 1)) :
    2 * Q < dsaP bits Q bs ∧ (dsaP bits Q bs).size ≤ bits + 1 ∧ (dsaP bits Q bs - 1) / Q * Q = dsaP bits Q bs - 1 := by
  unfold dsaP
  have hlt := Nat.mod_lt (beVal bs) (Nat.two_pow_pos (bits - 1))
  set M := beVal bs % 2 ^ (bits - 1) + 2 ^ (bits - 1) with hM
  have h1 : 1 ≤ M / (2 * Q) := (Nat.one_le_div_iff (by omega)).2 (by omega)
  have h2 : M / (2 * Q) * (2 * Q) ≤ M := Nat.div_mul_le_self _ _
  have h3 : 2 ^ (bits - 1) + 2 ^ (bits - 1) = 2 ^ bits := by rw [← two_mul, ← pow_succ']; congr 1; omega
  refine ⟨by nlinarith, ?_, ?_⟩
  · rw [Nat.size_le, pow_succ]
    have := Nat.two_pow_pos bits
    omega
  · rw [Nat.add_sub_cancel]
    exact Nat.div_mul_cancel ⟨M / (2 * Q) * 2, by ring⟩

theorem dsaPLoop_calm {Q : Nat} {draw : Nat → PrimeDraw} (hw : DigitWidth w) (hK : K.Calm) (hA : Three sp q p g) (hQ : 0 < Q) (hb : 0 < bits) (hQb : 2 * Q ≤ 2 ^ (bits - 1))
    (hf : bits + 1 ≤ fuel) (hd : ∀ j, (draw j).bytes.length = (bits + 7) / 8 ∧ (2 ^ w) ^ ((bits - 1) / w) ≤ beVal (draw j).bytes)
    (hmr : ∀ j, ∀ i < 5, Fit w (dsaP bits Q (draw j).bytes) ((draw j).mr i)) : ∀ (m j : Nat) (s : St) (P r : Int), 0 ≤ P → 0 ≤ r →
    At K (NV w sp (DB w A q p g Q P G) [a, k, r, 1]) (sp + 4) s →
    ∃ f s' P' r', dsaPLoop w sp fuel p q bits draw m j s = .ok (f, s') ∧ 0 ≤ P' ∧ 0 ≤ r' ∧ At K (NV w sp (DB w A q p g Q P' G) [a, k, r', 1]) (sp + 4) s' ∧
      ((f = 0 ∧ ∃ k, k < m ∧ PTry bits Q draw (j + k) ∧ (∀ i < k, ¬ PTry bits Q draw (j + i)) ∧ P' = dsaP bits Q (draw (j + k)).bytes) ∨
       (f = 1 ∧ ∀ i < m, ¬ PTry bits Q draw (j + i)))
  | 0, j, s, P, r, hP, hr, h => ⟨1, s, P, r, rfl, hP, hr, h, Or.inr ⟨rfl, by simp⟩⟩
  | m + 1, j, s, P, r, hP, hr, h => by
    obtain ⟨s1, r1, e1, hr1, h1⟩ := dsaCand_calm hw hK hA h hP hQ hb (hd j).1 (hd j).2
    obtain ⟨b1, b2, -⟩ := dsaP_bounds (bs := (draw j).bytes) hQ hb hQb
    have hp' := hA.ltp
    obtain ⟨t, s2, e2, h2, c2⟩ := isPrime_calm hw hK h1 (p := p) (fuel := fuel) (by omega) (fun o ho => by rw [NV.lo hA.ltp, DB.getP hA] at ho; exact ho.shows)
      (by omega) (by omega) (draw j).mr (fun _ i hi => hmr j i hi)
    unfold dsaPLoop
    rw [bind_ok e1, if_neg (by simp), bind_ok e2]
    rcases c2 with ⟨rfl, c2⟩ | ⟨rfl, c2⟩
    · rw [if_pos (by decide)]
      exact ⟨0, s2, _, r1, rfl, by positivity, hr1, h2, Or.inl ⟨rfl, 0, by omega, c2, by simp, rfl⟩⟩
    · rw [if_neg (by simp)]
      obtain ⟨f, s3, P3, r3, e3, i1, i2, h3, c3⟩ := dsaPLoop_calm hw hK hA hQ hb hQb hf hd hmr m (j + 1) s2 _ r1 (by positivity) hr1 h2
      have ext : ∀ {k : Nat}, (∀ i < k, ¬ PTry bits Q draw (j + 1 + i)) → ∀ i < k + 1, ¬ PTry bits Q draw (j + i) := fun {k} h i hi => by
        cases i with
        | zero => exact c2
        | succ i => rw [show j + (i + 1) = j + 1 + i by omega]; exact h i (by omega)
      refine ⟨f, s3, P3, r3, e3, i1, i2, h3, ?_⟩
      rcases c3 with ⟨rfl, k, k1, k2, k3, k4⟩ | ⟨rfl, k1⟩
      · exact Or.inl ⟨rfl, k + 1, by omega, by rw [show j + (k + 1) = j + 1 + k by omega]; exact k2, ext k3, by rw [show j + (k + 1) = j + 1 + k by omega]; exact k4⟩
      · exact Or.inr ⟨rfl, ext k1⟩

theorem dsaGLoop_calm {Q P : Nat} {draw : Nat → List Byte} (hw : DigitWidth w) (hK : K.Calm) (hA : Three sp q p g) (hP : 1 < P) (hd : ∀ j, Fit w (P - 1) (draw j)) :
    ∀ (m j : Nat) (s : St) (G r : Int), 0 ≤ r →
    At K (NV w sp (DB w A q p g Q P G) [((P - 1 : Nat) : Int), (((P - 1) / Q : Nat) : Int), r, 1]) (sp + 4) s →
    ∃ f s' G' r', dsaGLoop w sp p g draw m j s = .ok (f, s') ∧ 0 ≤ r' ∧
      At K (NV w sp (DB w A q p g Q P G') [((P - 1 : Nat) : Int), (((P - 1) / Q : Nat) : Int), r', 1]) (sp + 4) s' ∧
      ((f = 0 ∧ ∃ k, k < m ∧ 1 < dsaG P Q (draw (j + k)) ∧ (∀ i < k, ¬ 1 < dsaG P Q (draw (j + i))) ∧ G' = dsaG P Q (draw (j + k))) ∨
       (f = 1 ∧ ∀ i < m, ¬ 1 < dsaG P Q (draw (j + i))))
  | 0, j, s, G, r, hr, h => ⟨1, s, G, r, rfl, hr, h, Or.inr ⟨rfl, by simp⟩⟩
  | m + 1, j, s, G, r, hr, h => by
    have hp' := hA.ltp; have hg' := hA.ltg
    obtain ⟨s1, e1, h1⟩ := cn_leaf (z := (rangeVal (P - 1) (draw j) : Int)) hK h (i := 2) (by omega) rfl
      (randRange_leaf hw (r := sp + 2) (x := sp) (M := P - 1) (Nums.val h (by omega)) hr (Src.get (Src.loc (x := sp) (j := 0) rfl (by omega)) h)
        (by omega) (by omega) (by omega) (by omega) (draw j) (hd j).1 (hd j).2) rfl
    have h1 : At K (NV w sp (DB w A q p g Q P G) [((P - 1 : Nat) : Int), (((P - 1) / Q : Nat) : Int), (rangeVal (P - 1) (draw j) : Int), 1]) (sp + 4) s1 := h1
    obtain ⟨s2, e2, h2⟩ := cn_add hw hK h1 rfl (r := sp + 2) (i := 2) rfl (by omega) (Src.loc (x := sp + 2) (j := 2) rfl (by omega)) (Src.loc (x := sp + 3) (j := 3) rfl (by omega)) rfl rfl
    have h2 : At K (NV w sp (DB w A q p g Q P G) [((P - 1 : Nat) : Int), (((P - 1) / Q : Nat) : Int), (rangeVal (P - 1) (draw j) : Int) + 1, 1]) (sp + 4) s2 := h2
    obtain ⟨s3, e3, h3⟩ := ca_leaf hK h2 hA.ltg (modExp_v hw (hK.fails h2 _) (by have := Nums.arg h2 hA.ltg; rw [DB.getG hA] at this; exact this.any)
      (Src.get (Src.loc (x := sp + 2) (j := 2) rfl (by omega)) h2) (Src.get (Src.loc (x := sp + 1) (j := 1) rfl (by omega)) h2) ((DB.srcP hA).get h2)
      (by show (0 : Int) ≤ (((P - 1) / Q : Nat) : Int); positivity) (by omega) (by omega) (by omega) (by omega) (by omega))
    rw [DB.setG hA] at h3
    have hval : [((P - 1 : Nat) : Int), (((P - 1) / Q : Nat) : Int), (rangeVal (P - 1) (draw j) : Int) + 1, 1].getD 2 0 ^
        ([((P - 1 : Nat) : Int), (((P - 1) / Q : Nat) : Int), (rangeVal (P - 1) (draw j) : Int) + 1, 1].getD 1 0).toNat % (P : Int) = (dsaG P Q (draw j) : Int) := by
      show ((rangeVal (P - 1) (draw j) : Int) + 1) ^ (((P - 1) / Q : Nat) : Int).toNat % (P : Int) = _
      unfold dsaG
      rw [Int.toNat_natCast]; push_cast; rfl
    rw [hval] at h3
    obtain ⟨c, e4, c1, c2⟩ := cmpAbs_shows ((DB.srcG hA).get h3) (Src.get (Src.loc (x := sp + 3) (j := 3) rfl (by omega)) h3)
    have c1 : c = 0 ↔ dsaG P Q (draw j) = 1 := by
      rw [c1]; show (dsaG P Q (draw j) : Int).natAbs = (1 : Int).natAbs ↔ _; omega
    have c2 : c ≥ 0 ↔ 1 ≤ dsaG P Q (draw j) := by
      rw [c2]; show (1 : Int).natAbs ≤ (dsaG P Q (draw j) : Int).natAbs ↔ _; omega
    have hrun : (chk (randRange w (sp + 4) (sp + 2) sp (draw j)) <| chk (add (2 ^ w) (sp + 2) (sp + 2) (sp + 3)) <|
        chk (modExp w (sp + 4) g (sp + 2) (sp + 1) (some p)) (pure 0)) s = .ok (0, s3) := by
      rw [chk_ok e1, chk_ok e2, chk_ok e3]; rfl
    unfold dsaGLoop
    rw [bind_ok hrun, if_neg (by simp), bind_ok e4]
    by_cases hG : 1 < dsaG P Q (draw j)
    · rw [if_pos (by omega)]
      exact ⟨0, s3, _, _, rfl, by positivity, h3, Or.inl ⟨rfl, 0, by omega, hG, by simp, rfl⟩⟩
    · rw [if_neg (by omega)]
      obtain ⟨f, s4, G4, r4, e4, i1, h4, c4⟩ := dsaGLoop_calm hw hK hA hP hd m (j + 1) s3 _ _ (by positivity) h3
      have ext : ∀ {k : Nat}, (∀ i < k, ¬ 1 < dsaG P Q (draw (j + 1 + i))) → ∀ i < k + 1, ¬ 1 < dsaG P Q (draw (j + i)) := fun {k} h i hi => by
        cases i with
        | zero => exact hG
        | succ i => rw [show j + (i + 1) = j + 1 + i by omega]; exact h i (by omega)
      refine ⟨f, s4, G4, r4, e4, i1, h4, ?_⟩
      rcases c4 with ⟨rfl, k, k1, k2, k3, k4⟩ | ⟨rfl, k1⟩
      · exact Or.inl ⟨rfl, k + 1, by omega, by rw [show j + (k + 1) = j + 1 + k by omega]; exact k2, ext k3, by rw [show j + (k + 1) = j + 1 + k by omega]; exact k4⟩
      · exact Or.inr ⟨rfl, ext k1⟩

/-- The numbers accepted as `q` have 160 bits. -/
theorem firstIn_size {m half : Nat} {draw : Nat → PrimeDraw} {x : Nat} (hb : 0 < half) (h8 : half % 8 = 0) (hd : DrawsOk w half draw) (h : FirstIn m half draw x) : x.size = half := by
  obtain ⟨k, -, -, -, rfl⟩ := h
  have hlt : beVal (draw k).bytes < 2 ^ half := by
    have := beVal_lt (draw k).bytes
    rwa [(hd k).1, show 256 = 2 ^ 8 by rfl, ← pow_mul, show 8 * (half / 8) = half by omega] at this
  exact cand_size (bits := half) (by omega) hlt

variable {pvt pub : Nat} {X0 : Int}

/-- The private and the public key are two more addresses. -/
structure Keys (sp q p g pvt pub : Nat) : Prop extends Three sp q p g where
  xq : pvt ≠ q
  xp : pvt ≠ p
  xg : pvt ≠ g
  yq : pub ≠ q
  yp : pub ≠ p
  yg : pub ≠ g
  xy : pvt ≠ pub
  ltx : pvt < sp
  lty : pub < sp

/-- The state in the outer loop. -/
def DS (K : Ctx) (w sp : Nat) (A : Env) (q p g : Nat) (s : St) : Prop :=
  ∃ Q P G a k r : Int, 0 ≤ Q ∧ 0 ≤ P ∧ 0 ≤ r ∧ At K (NV w sp (DB w A q p g Q P G) [a, k, r, 1]) (sp + 4) s

/-- The state with a key. -/
def DK (K : Ctx) (w sp : Nat) (A : Env) (q p g pvt pub : Nat) (Q P G : Nat) (bs : List Byte) (s : St) : Prop :=
  ∃ L, At K (NV w sp (Function.update (Function.update (DB w A q p g Q P G) pvt (V w (rangeVal ((P - 1) / Q) bs) 0)) pub
    (V w ((G ^ rangeVal ((P - 1) / Q) bs % P : Nat) : Int) 0)) L) (sp + 4) s

theorem dsaTurn_calm (hw : DigitWidth w) (hK : K.Calm) (hA : Keys sp q p g pvt pub) (hb : 162 ≤ bits) (hf : bits + 1 ≤ fuel) {dr : DsaDraw} (hd : DsaDrawOk w bits dr)
    (ax : ∀ o, A pvt o → V w X0 0 o) (hX : 0 ≤ X0) (ay : ∀ o, A pub o → Any w o) (h : DS K w sp A q p g s) :
    ∃ st c s', dsaTurn w sp fuel p q g pvt pub bits dr s = .ok ((st, c), s') ∧
      ((st = 0 ∧ c = false ∧ ∃ Q P G, DsaFound bits dr Q P G ∧ DK K w sp A q p g pvt pub Q P G dr.x s') ∨
       (st = -1 ∧ c = true ∧ DsaRetry bits dr ∧ DS K w sp A q p g s') ∨
       (st = -1 ∧ c = false ∧ NoneIn 5000 160 dr.q ∧ DS K w sp A q p g s')) := by
  have hw0 : 0 < w := by have := hw.pos; omega
  have hA3 := hA.toThree
  have hp' := hA.ltp; have hq' := hA.ltq; have hg' := hA.ltg; have hx' := hA.ltx; have hy' := hA.lty
  obtain ⟨Q0, P0, G0, a, k, r, i1, i2, i3, h⟩ := h
  unfold dsaTurn
  obtain ⟨st1, it1, s1, Q, e1, h1, c1⟩ := prime_calm_in (m := 5000) (half := 160) (by decide) hw hK h (p := q) (by omega)
    (fun o ho => by rwa [NV.lo hA.ltq, DB.getQ] at ho) i1 (by decide) (by decide) hd.q (by omega : 160 ≤ fuel)
  have h1 := h1.le (Nums.set_arg (Q := fun z => V w z 0) hA.ltq)
  rw [DB.setQ] at h1
  rw [bind_ok e1]
  rcases c1 with ⟨rfl, c1⟩ | ⟨rfl, c1⟩
  swap
  · exact ⟨-1, false, s1, rfl, Or.inr (Or.inr ⟨rfl, rfl, c1, Q, P0, G0, a, k, r, by positivity, i2, i3, h1⟩)⟩
  rw [if_neg (by simp)]
  have hsz := firstIn_size (by decide) (by decide) hd.q c1
  have hQ : 0 < Q := by rw [← Nat.size_pos]; omega
  have hQb : 2 * Q ≤ 2 ^ (bits - 1) := by
    have h1 : Q < 2 ^ 160 := Nat.size_le.1 hsz.le
    have h2 : 2 ^ 161 ≤ 2 ^ (bits - 1) := Nat.pow_le_pow_right (by decide) (by omega)
    have h3 : (2 : Nat) ^ 161 = 2 * 2 ^ 160 := by rw [pow_succ']
    omega
  obtain ⟨f2, s2, P2, r2, e2, j1, j2, h2, c2⟩ := dsaPLoop_calm hw hK hA3 hQ (by omega) hQb hf hd.p (hd.mr Q c1) 4096 0 s1 P0 r i2 i3 h1
  rw [bind_ok e2]
  simp only [Nat.zero_add] at c2
  rcases c2 with ⟨rfl, kp, k1, k2, k3, rfl⟩ | ⟨rfl, c2⟩
  swap
  · rw [if_neg (by decide), if_pos rfl]
    exact ⟨-1, true, s2, rfl, Or.inr (Or.inl ⟨rfl, rfl, ⟨Q, c1, Or.inl c2⟩, Q, P2, G0, a, k, r2, by positivity, j1, j2, h2⟩)⟩
  rw [if_neg (by decide), if_neg (by decide)]
  have hPf : ∃ k, FirstOf 4096 (PTry bits Q dr.p) k ∧ dsaP bits Q (dr.p kp).bytes = dsaP bits Q (dr.p k).bytes := ⟨kp, ⟨k1, k2, k3⟩, rfl⟩
  obtain ⟨b1, b2, b3⟩ := dsaP_bounds (bs := (dr.p kp).bytes) hQ (by omega : 0 < bits) hQb
  set P := dsaP bits Q (dr.p kp).bytes with hPdef
  have hPi : (P : Int) - 1 = ((P - 1 : Nat) : Int) := by omega
  obtain ⟨s3, e3, h3⟩ := cn_sub hw hK h2 rfl (r := sp) (i := 0) rfl (by omega) (DB.srcP hA3) (Src.loc (x := sp + 3) (j := 3) rfl (by omega)) rfl rfl
  have h3 : At K (NV w sp (DB w A q p g Q P G0) [(P : Int) - 1, k, r2, 1]) (sp + 4) s3 := h3
  rw [hPi] at h3
  have hdiv := div_same hw (sp := sp + 4) (rq := some (sp + 1)) (rr := none) (Src.get (Src.loc (x := sp) (j := 0) rfl (by omega)) h3) ((DB.srcQ hA3).get h3) (by omega) (by omega)
    (by omega) (by show ((P - 1 : Nat) : Int) < 0 ↔ (Q : Int) < 0; omega) (fun v e => by cases e; exact ⟨by omega, _, Nums.val h3 (j := 1) (by omega)⟩) (fun v e => by cases e) (fun v _ => by simp)
  have hl := leaf_of_res (r := sp + 1) (by omega) hdiv
  have hval : |[((P - 1 : Nat) : Int), k, r2, 1].getD 0 0| / |(Q : Int)| = (((P - 1) / Q : Nat) : Int) := by
    show |((P - 1 : Nat) : Int)| / |(Q : Int)| = _
    rw [abs_of_nonneg (by positivity), abs_of_nonneg (by positivity)]; push_cast; rfl
  rw [hval] at hl
  obtain ⟨s4, e4, h4⟩ := cn_leaf hK h3 (i := 1) (by omega) rfl hl rfl
  have h4 : At K (NV w sp (DB w A q p g Q P G0) [((P - 1 : Nat) : Int), (((P - 1) / Q : Nat) : Int), r2, 1]) (sp + 4) s4 := h4
  obtain ⟨s5, e5, h5⟩ := cn_sub hw hK h4 rfl (r := sp) (i := 0) rfl (by omega) (DB.srcP hA3) (Src.loc (x := sp + 3) (j := 3) rfl (by omega)) rfl rfl
  have h5 : At K (NV w sp (DB w A q p g Q P G0) [(P : Int) - 1, (((P - 1) / Q : Nat) : Int), r2, 1]) (sp + 4) s5 := h5
  rw [hPi] at h5
  have hrun : (chk (sub (2 ^ w) sp p (sp + 3)) <| chk (div w (sp + 4) (some (sp + 1)) none sp q) <| chk (sub (2 ^ w) sp p (sp + 3)) (pure 0)) s2 = .ok (0, s5) := by
    rw [chk_ok e3, chk_ok e4, chk_ok e5]; rfl
  rw [bind_ok hrun, if_neg (by simp)]
  obtain ⟨f6, s6, G6, r6, e6, l1, h6, c6⟩ := dsaGLoop_calm hw hK hA3 (by omega) (hd.g Q P c1 hPf) 4096 0 s5 G0 r2 j2 h5
  rw [bind_ok e6]
  simp only [Nat.zero_add] at c6
  rcases c6 with ⟨rfl, kg, m1, m2, m3, rfl⟩ | ⟨rfl, c6⟩
  swap
  · rw [if_neg (by decide), if_pos rfl]
    exact ⟨-1, true, s6, rfl, Or.inr (Or.inl ⟨rfl, rfl, ⟨Q, c1, Or.inr ⟨P, hPf, c6⟩⟩, Q, P, G6, _, _, r6, by positivity, by positivity, l1, h6⟩)⟩
  rw [if_neg (by decide), if_neg (by decide)]
  have hfound : DsaFound bits dr Q P (dsaG P Q (dr.g kg)) := ⟨c1, hPf, kg, ⟨m1, m2, m3⟩, rfl⟩
  have hfit := hd.x _ _ _ hfound
  set G := dsaG P Q (dr.g kg) with hG
  have hk0 : 0 < (P - 1) / Q := Nat.div_pos (by omega) hQ
  obtain ⟨s7, e7, h7⟩ := ca_leaf hK h6 hA.ltx (randRange_leaf hw (r := pvt) (x := sp + 1) (M := (P - 1) / Q)
    (ax _ (by have := Nums.arg h6 hA.ltx; rwa [DB.other hA.xq hA.xp hA.xg] at this)) hX (Src.get (Src.loc (x := sp + 1) (j := 1) rfl (by omega)) h6)
    hk0 (by omega) (by omega) (by omega) dr.x hfit.1 hfit.2)
  rw [bind_ok e7]
  obtain ⟨s8, e8, h8⟩ := ca_leaf hK h7 hA.lty (modExp_v (b := g) (e := pvt) (m := p) hw (hK.fails h7 _)
    (ay _ (by have := Nums.arg h7 hA.lty; rwa [Function.update_of_ne hA.xy.symm, DB.other hA.yq hA.yp hA.yg] at this))
    (Src.get (Src.argKeep hA.ltg hA.xg.symm (fun o ho => by rw [DB.getG hA3] at ho; exact ho.shows)) h7) (Src.get (Src.argSet hA.ltx) h7)
    (Src.get (Src.argKeep hA.ltp hA.xp.symm (fun o ho => by rw [DB.getP hA3] at ho; exact ho.shows)) h7) (by positivity) (by omega) (by omega) (by omega) (by omega) (by omega))
  rw [bind_ok e8]
  have hY : (G : Int) ^ (rangeVal ((P - 1) / Q) dr.x : Int).toNat % (P : Int) = ((G ^ rangeVal ((P - 1) / Q) dr.x % P : Nat) : Int) := by
    rw [Int.toNat_natCast]; push_cast; rfl
  rw [hY] at h8
  exact ⟨0, false, s8, rfl, Or.inl ⟨rfl, rfl, Q, P, G, hfound, _, h8⟩⟩

theorem dsaKeyLoop_calm (hw : DigitWidth w) (hK : K.Calm) (hA : Keys sp q p g pvt pub) (hb : 162 ≤ bits) (hf : bits + 1 ≤ fuel) {draw : Nat → DsaDraw} (hd : ∀ i, DsaDrawOk w bits (draw i))
    (ax : ∀ o, A pvt o → V w X0 0 o) (hX : 0 ≤ X0) (ay : ∀ o, A pub o → Any w o) : ∀ (n i : Nat) (s : St), DS K w sp A q p g s →
    ∃ st s', dsaKeyLoop w sp fuel p q g pvt pub bits draw n i s = .ok (st, s') ∧
      ((st = 0 ∧ ∃ k Q P G, k < n ∧ (∀ j < k, DsaRetry bits (draw (i + j))) ∧ DsaFound bits (draw (i + k)) Q P G ∧ DK K w sp A q p g pvt pub Q P G (draw (i + k)).x s') ∨
       (st = -1 ∧ DS K w sp A q p g s' ∧ ((∀ j < n, DsaRetry bits (draw (i + j))) ∨
          ∃ k, k < n ∧ (∀ j < k, DsaRetry bits (draw (i + j))) ∧ NoneIn 5000 160 (draw (i + k)).q)))
  | 0, i, s, h => ⟨-1, s, rfl, Or.inr ⟨rfl, h, Or.inl (by simp)⟩⟩
  | n + 1, i, s, h => by
    obtain ⟨st, c, s1, e1, c1⟩ := dsaTurn_calm hw hK hA hb hf (hd i) ax hX ay h
    unfold dsaKeyLoop
    rw [bind_ok e1]
    rcases c1 with ⟨rfl, rfl, Q, P, G, d1, d2⟩ | ⟨rfl, rfl, d, h1⟩ | ⟨rfl, rfl, d, h1⟩
    · exact ⟨0, s1, rfl, Or.inl ⟨rfl, 0, Q, P, G, by omega, by simp, d1, d2⟩⟩
    · rw [if_pos rfl]
      obtain ⟨st, s2, e2, c2⟩ := dsaKeyLoop_calm hw hK hA hb hf hd ax hX ay n (i + 1) s1 h1
      have ext : ∀ {k : Nat}, (∀ j < k, DsaRetry bits (draw (i + 1 + j))) → ∀ j < k + 1, DsaRetry bits (draw (i + j)) := fun {k} h j hj => by
        cases j with
        | zero => exact d
        | succ j => rw [show i + (j + 1) = i + 1 + j by omega]; exact h j (by omega)
      refine ⟨st, s2, e2, ?_⟩
      rcases c2 with ⟨r, k, Q, P, G, k1, k2, k3⟩ | ⟨r, h2, k2 | ⟨k, k1, k2, k3⟩⟩
      · exact Or.inl ⟨r, k + 1, Q, P, G, by omega, ext k2, by rw [show i + (k + 1) = i + 1 + k by omega]; exact k3⟩
      · exact Or.inr ⟨r, h2, Or.inl (ext k2)⟩
      · exact Or.inr ⟨r, h2, Or.inr ⟨k + 1, by omega, ext k2, by rw [show i + (k + 1) = i + 1 + k by omega]; exact k3⟩⟩
    · exact ⟨-1, s1, rfl, Or.inr ⟨rfl, h1, Or.inr ⟨0, by omega, by simp, d⟩⟩⟩

end

end Verif.Mem
