import Verif.Lemmas.Mem.Rand
import Verif.Lemmas.Mem.EcpInit
import Verif.Props.Pk.Ecdsa
/-! ECDSA in memory: what the functions do when no allocation fails. -/
namespace Verif.Mem
open Verif.Mpi
open WeierstrassCurve WeierstrassCurve.Affine
open Verif.Ecp (curve ptX)

variable {w : Nat} {K : Ctx} {A : Env} {sp N : Nat} {s : St} {L : List Int}

theorem getD_set {i j : Nat} {z : Int} (hi : i < L.length) : (L.set i z).getD j 0 = if i = j then z else L.getD j 0 := by
  rw [List.getD_eq_getElem?_getD, List.getElem?_set]
  split_ifs with h1
  · rfl
  · rw [List.getD_eq_getElem?_getD]

/-- A local point. -/
theorem but3_nv {S i : Nat} {x y z : Int} (hi : i + 2 < L.length) :
    Le S (But3 w (NV w sp A L) (sp + i) x y z) (NV w sp A (((L.set i x).set (i + 1) y).set (i + 2) z)) := by
  intro v _ o ho
  by_cases h : v < sp
  · rw [But3.ne (by omega), NV.lo h] at ho; rw [NV.lo h]; exact ho
  · obtain ⟨j, rfl⟩ : ∃ j, v = sp + j := ⟨v - sp, by omega⟩
    rw [NV.hi, getD_set (by simp; omega), getD_set (by simp; omega), getD_set (by omega)]
    by_cases h2 : j = i + 2
    · subst h2; rw [← Nat.add_assoc, But3.atZ] at ho; rw [if_pos rfl]; exact ho
    by_cases h1 : j = i + 1
    · subst h1; rw [← Nat.add_assoc, But3.atY] at ho; rw [if_neg (by omega), if_pos rfl]; exact ho
    by_cases h0 : j = i
    · subst h0; rw [But3.atX] at ho; rw [if_neg (by omega), if_neg (by omega), if_pos rfl]; exact ho
    · rw [But3.ne (by omega), NV.hi] at ho; rw [if_neg (by omega), if_neg (by omega), if_neg (by omega)]; exact ho

theorem nv_pt3 {i : Nat} : Pt3 w (NV w sp A L) (sp + i) := by
  refine ⟨fun o ho => ?_, fun o ho => ?_, fun o ho => ?_⟩
  · rw [NV.hi] at ho; exact ho.any
  · rw [Nat.add_assoc, NV.hi] at ho; exact ho.any
  · rw [Nat.add_assoc, NV.hi] at ho; exact ho.any

theorem nv_at3 {i : Nat} : At3 w (NV w sp A L) (sp + i) (L.getD i 0) (L.getD (i + 1) 0) (L.getD (i + 2) 0) := by
  refine ⟨fun o ho => ?_, fun o ho => ?_, fun o ho => ?_⟩
  · rw [NV.hi] at ho; exact ho.shows
  · rw [Nat.add_assoc, NV.hi] at ho; exact ho.shows
  · rw [Nat.add_assoc, NV.hi] at ho; exact ho.shows

section
variable {p : Nat} {a b : ZMod p}

theorem At3.lo {q : Nat} {x y z : Int} (h : At3 w A q x y z) (hq : q + 2 < sp) : At3 w (NV w sp A L) q x y z :=
  h.congr fun v _ _ => NV.lo (by omega)
theorem GrpAt.lo [Fact p.Prime] {g : Nat} {za : Int} (h : GrpAt w p a b A g za) (hg : g + 1 < sp) : GrpAt w p a b (NV w sp A L) g za :=
  h.congr (NV.lo (by omega)) (NV.lo (by omega))

variable [Fact p.Prime]

/-- Multiplication of a point of the caller into a local one. -/
theorem cn_ecpMul {S i j g q r kk k : Nat} {za x0 y0 z0 : Int} {P : (curve p a b).Point} {F : Prop} (hS : S = sp + N) (hw : DigitWidth w) (hK : K.Calm)
    (hF : F ∨ ∀ k : Nat, k • P + k • P = 0 → k • P = 0) (h : At K (NV w sp A L) (sp + N) s) (hL : L.length = N) (hr : r = sp + i) (hi : i + 2 < N)
    (hk : kk = sp + j) (hj : j < N) (hkv : L.getD j 0 = (k : Int)) (hg : g + 1 < sp) (hG : GrpAt w p a b A g za) (hq : q + 2 < sp)
    (hP : At3 w A q x0 y0 z0) (hon : OnPt x0 y0 z0 P) :
    (F ∧ ∃ s', ecpMul w S r q kk g s = .ok (-1, s') ∧ At K (NV w sp A L) (sp + N) s') ∨
    ∃ s' x y z, ecpMul w S r q kk g s = .ok (0, s') ∧ At K (NV w sp A (((L.set i x).set (i + 1) y).set (i + 2) z)) (sp + N) s' ∧
      OnPt x y z (k • P) ∧ (RedPt p x0 y0 z0 → RedPt p x y z) := by
  subst hS hr hk
  have hw0 : 0 < w := by have := hw.pos; omega
  have hv := Nums.val h hj
  rw [hkv] at hv
  obtain ⟨m, m1, m2, -⟩ := hv
  have hm := NatRep.of_wf m1 m2
  have key : ∀ o, NV w sp A L (sp + j) o → ∃ n, o.Reads ⟨n, m.digs⟩ := by
    intro o ho
    rw [NV.hi, hkv] at ho
    obtain ⟨m', n1, n2, n3⟩ := ho.shows
    rw [(NatRep.of_wf n1 n2).unique hm] at n3
    exact ⟨_, n3⟩
  rcases ecpMul_calm (F := F) hw hK hF hm.norm.digits (pr := sp + i) key (by omega) (by omega) (hG.lo hg) (by omega) (by omega) (by omega) nv_pt3 (hP.lo hq) hon h with
    ⟨f, s', e, h'⟩ | ⟨s', x, y, z, e, h', o1, o2⟩
  · exact Or.inl ⟨f, s', e, h'⟩
  · rw [hm.value] at o1
    exact Or.inr ⟨s', x, y, z, e, h'.le (but3_nv (by omega)), o1, o2⟩

omit [Fact p.Prime] in
/-- The abscissa of a point in standard form. -/
theorem redPt_x {x y z : Int} {P : (curve p a b).Point} [NeZero p] (h : OnPt x y z P) (hr : RedPt p x y z) : x = ptX P := by
  cases P with
  | zero =>
    rcases hr with ⟨rfl, -⟩ | ⟨-, -, -, -, rfl⟩
    · rfl
    · exact absurd (show (1 : Int) = 0 from h) (by decide)
  | some X Y hP =>
    obtain ⟨h1, h2, -⟩ := h
    rcases hr with ⟨-, -, rfl⟩ | ⟨a1, a2, -⟩
    · exact absurd rfl h1
    · show x = ((X.val : Nat) : Int)
      rw [← h2]
      obtain ⟨n, rfl⟩ := Int.eq_ofNat_of_zero_le a1
      rw [Int.cast_natCast, ZMod.val_natCast_of_lt (by omega)]

/-- The verification equation for one inverse decides it for all. -/
theorem ecdsa_equation_iff {n z v : Nat} {G Q : (curve p a b).Point} {r t : Int} (hv : t * v ≡ 1 [ZMOD n]) :
    Ecdsa.Equation n G Q z r t ↔ ptX ((z * v % n) • G + (r * v % n).toNat • Q) % n = r.natAbs := by
  constructor
  · rintro ⟨v', m', e'⟩
    have hv : (v : Int) ≡ v' [ZMOD n] := by
      have a := m'.mul_right (v : Int)
      have b := hv.mul_right (v' : Int)
      rw [one_mul] at a b
      exact a.symm.trans (by rw [mul_right_comm]; exact b)
    have e1 : z * v % n = z * v' % n := ((Int.natCast_modEq_iff.1 hv).mul_left _)
    have e2 : r * v % n = r * v' % n := hv.mul_left _
    rw [e1, e2, e']
  · intro h; exact ⟨v, hv, h⟩

theorem ecdsa_equation_gcd {n z : Nat} {G Q : (curve p a b).Point} {r t : Int} (h : Ecdsa.Equation n G Q z r t) : Int.gcd t n = 1 := by
  obtain ⟨v, m, -⟩ := h
  refine Int.isCoprime_iff_gcd_eq_one.1 ?_
  obtain ⟨u, hu⟩ := Int.modEq_iff_dvd.1 m.symm
  exact ⟨v, -u, by linarith⟩

/-- Which of the signatures made by the rule satisfy the equation. -/
theorem ecdsa_equation_of_sign {n d k r t z : Nat} {G : (curve p a b).Point} (hp : n.Prime) (ho : addOrderOf G = n) (hr : r = ptX (k • G))
    (hs : k * t ≡ z + d * r [MOD n]) (hsn : t < n) : Ecdsa.Equation n G (d • G) z r t ↔ t ≠ 0 ∧ r < n := by
  constructor
  · intro h
    have hg := ecdsa_equation_gcd h
    obtain ⟨v, m, e⟩ := h
    constructor
    · rintro rfl
      rw [Nat.cast_zero, Int.gcd_zero_left, Int.natAbs_natCast] at hg
      exact absurd hg hp.one_lt.ne'
    · rw [Int.natAbs_natCast] at e
      rw [← e]; exact Nat.mod_lt _ hp.pos
  · rintro ⟨hs0, hrn⟩
    have hco : Nat.Coprime t n := Nat.Coprime.symm ((Nat.Prime.coprime_iff_not_dvd hp).2
      fun h => hs0 (Nat.eq_zero_of_dvd_of_lt h hsn))
    obtain ⟨v, -, hv⟩ := Nat.exists_mul_mod_eq_one_of_coprime hco hp.one_lt
    have m : t * v ≡ 1 [MOD n] := by rw [Nat.ModEq, hv, Nat.mod_eq_of_lt hp.one_lt]
    refine ⟨v, by exact_mod_cast Int.natCast_modEq_iff.2 m, ?_⟩
    have e1 : ((r : Int) * v % n).toNat = r * v % n := by
      rw [← Nat.cast_mul, ← Int.natCast_mod, Int.toNat_natCast]
    rw [e1, Int.natAbs_natCast, smul_smul, ← add_nsmul]
    have hkk : z * v % n + r * v % n * d ≡ k [MOD n] := by
      have h1 : z * v % n + r * v % n * d ≡ z * v + r * v * d [MOD n] :=
        (Nat.mod_modEq _ _).add ((Nat.mod_modEq _ _).mul_right _)
      refine h1.trans ?_
      calc z * v + r * v * d = (z + d * r) * v := by ring
        _ ≡ k * t * v [MOD n] := (hs.symm.mul_right v)
        _ = k * (t * v) := by ring
        _ ≡ k * 1 [MOD n] := m.mul_left k
        _ = k := by ring
    have : (z * v % n + r * v % n * d) • G = k • G := by
      rw [← mod_addOrderOf_nsmul, ho, hkk, ← ho, mod_addOrderOf_nsmul]
    rw [this, ← hr, Nat.mod_eq_of_lt hrn]

/-- The domain parameters, in an environment: a group at `g` with a base point of odd prime order `n`. -/
structure DomAt (w p : Nat) (a b : ZMod p) [Fact p.Prime] (A : Env) (g : Nat) (za : Int) (G : (curve p a b).Point) (n : Nat) : Prop where
  grp : GrpAt w p a b A g za
  base : ∃ x y z, At3 w A (g + 3) x y z ∧ OnPt x y z G ∧ RedPt p x y z
  ord : ∀ o, A (g + 6) o → o.Shows w n
  prime : n.Prime
  odd : n ≠ 2
  order : addOrderOf G = n

variable {za : Int} {g : Nat} {G : (curve p a b).Point} {n : Nat}

theorem DomAt.hodd (h : DomAt w p a b A g za G n) : Odd (addOrderOf G) := by rw [h.order]; exact h.prime.odd_of_ne_two h.odd

theorem ecpInitList_calm (hw : DigitWidth w) (hK : K.Calm) (h : At K (Locals (sp + 2) (NV w sp A [0, 0]) (· = Obj.fresh)) (sp + 2 + 6) s) :
    ∃ s', ecpInitList w [sp + 2, sp + 5] s = .ok (0, s') ∧ At K (NV w sp A [0, 0, 1, 1, 0, 1, 1, 0]) (sp + 8) s' := by
  obtain ⟨st, s', E', e, h1, h2, h3⟩ := ecpInitListLoop_at hw [sp + 2, sp + 5] [] _ s h (by simp)
    (by
      intro q hq v hv1 hv2 o ho
      unfold Locals at ho
      rw [if_neg (by simp at hq; omega)] at ho
      rw [ho]; rfl) (by simp) (by simp)
  rcases h3 with ⟨rfl, h3⟩ | ⟨rfl, ⟨k, -, -, k3⟩, -⟩
  · refine ⟨s', e, h1.le fun v hv o ho => ?_⟩
    have i1 := h3 (sp + 2) (by simp)
    have i2 := h3 (sp + 5) (by simp)
    by_cases hs : v < sp + 2
    · rw [h2 v (by simp; omega), Locals.lo hs] at ho
      by_cases hs' : v < sp
      · rw [NV.lo hs'] at *; exact ho
      · obtain ⟨j, rfl⟩ : ∃ j, v = sp + j := ⟨v - sp, by omega⟩
        rw [NV.hi] at *
        obtain rfl | rfl : j = 0 ∨ j = 1 := by omega
        · exact ho
        · exact ho
    · obtain rfl | rfl | rfl | rfl | rfl | rfl : v = sp + 2 ∨ v = sp + 3 ∨ v = sp + 4 ∨ v = sp + 5 ∨ v = sp + 6 ∨ v = sp + 7 := by omega
      · rw [NV.hi]; exact (i1.x o ho).weak (by omega)
      · rw [NV.hi]; exact (i1.y o ho).weak (by omega)
      · rw [NV.hi]; exact (i1.z o ho).weak (by omega)
      · rw [NV.hi]; exact (i2.x o ho).weak (by omega)
      · rw [NV.hi]; exact (i2.y o ho).weak (by omega)
      · rw [NV.hi]; exact (i2.z o ho).weak (by omega)
  · have := hK k; rw [k3] at this; cases this

/-- The clean-up of `cry_ecdsa_verify`, which clears some numbers twice. -/
theorem ecdsaVerify_clear (h : At K (NV w sp A L) (sp + 8) s) :
    ∃ s1 s2, ecpClearList [sp + 2, sp + 5] s = .ok ((), s1) ∧ clearList [sp, sp + 1, sp + 2, sp + 3, sp + 5, sp + 6] s1 = .ok ((), s2) ∧ At K A sp s2 := by
  have hN : ∀ v, sp ≤ v → ∀ o, NV w sp A L v o → Null o ∨ ∃ m, o.Holds m := by
    intro v hv o ho
    obtain ⟨j, rfl⟩ : ∃ j, v = sp + j := ⟨v - sp, by omega⟩
    rw [NV.hi] at ho
    exact ho.any.clr
  obtain ⟨s1, e1, h1, -⟩ := clearList_at [sp + 2, sp + 2 + 1, sp + 2 + 2] _ s h (by intro a ha; simp at ha; omega)
    (fun v hv => hN v (by simp at hv; omega))
  obtain ⟨s2, e2, h2, -⟩ := clearList_at [sp + 5, sp + 5 + 1, sp + 5 + 2] _ s1 h1 (by intro a ha; simp at ha; omega) (by
    intro v hv o ho
    unfold Sets at ho
    rw [if_neg (by simp at hv ⊢; omega)] at ho
    exact hN v (by simp at hv; omega) o ho)
  obtain ⟨s3, e3, h3, -⟩ := clearList_at [sp, sp + 1, sp + 2, sp + 3, sp + 5, sp + 6] _ s2 h2 (by intro a ha; simp at ha; omega) (by
    intro v hv o ho
    unfold Sets at ho
    split_ifs at ho
    · left; rw [ho]; exact null_cleared
    · left; rw [ho]; exact null_cleared
    · exact hN v (by simp at hv; omega) o ho)
  refine ⟨s2, s3, ?_, e3, ?_⟩
  · rw [ecpClearList, bind_ok (show ecpClear (sp + 2) s = _ from e1), ecpClearList, bind_ok (show ecpClear (sp + 5) s1 = _ from e2)]; rfl
  · refine (exit_at h3 fun v h1 h2 o ho => ?_).le fun v hv o ho => ?_
    · unfold Sets at ho
      split_ifs at ho with a1 a2 a3
      · rw [ho]; rfl
      · rw [ho]; rfl
      · rw [ho]; rfl
      · simp at a1 a2 a3; omega
    · unfold Sets at ho
      rw [if_neg (by simp; omega), if_neg (by simp; omega), if_neg (by simp; omega), NV.lo hv] at ho
      exact ho

theorem ecdsaVerify_calm (hw : DigitWidth w) (hK : K.Calm) (h : At K A sp s) {q r t : Nat} {R T : Int} {Q : (curve p a b).Point}
    (hg : g + 6 < sp) (hq : q + 2 < sp) (hr : r < sp) (ht : t < sp) (hd : DomAt w p a b A g za G n) {x0 y0 z0 : Int}
    (aq : At3 w A q x0 y0 z0) (hon : OnPt x0 y0 z0 Q) (hred : RedPt p x0 y0 z0)
    (ar : ∀ o, A r o → o.Shows w R) (at' : ∀ o, A t o → o.Shows w T) (msg : List Byte) :
    ∃ st s', ecdsaVerify w sp g q r t msg s = .ok (st, s') ∧ At K A sp s' ∧ (st = 0 ∨ st = -1) ∧
      (st = 0 → Ecdsa.Equation n G Q (cutVal w n msg) R T) ∧ (Odd (addOrderOf Q) → Ecdsa.Equation n G Q (cutVal w n msg) R T → st = 0) := by
  have hw0 : 0 < w := by have := hw.pos; omega
  have hn := hd.prime.pos
  have : NeZero p := ⟨(Fact.out : p.Prime).ne_zero⟩
  obtain ⟨bx, by', bz, b1, b2, b3⟩ := hd.base
  obtain ⟨s0, e0, h0⟩ := decl_run h 2
  unfold ecdsaVerify
  rw [bind_ok e0]
  have hlist : ∀ v, v ∈ [sp, sp + 1] ↔ sp ≤ v ∧ v < sp + 2 := by
    intro v; simp only [List.mem_cons, List.not_mem_nil, or_false]; omega
  obtain ⟨s1, e1, h1⟩ := initList_calm hw0 hK h0 hlist (by simp)
  rw [chk_ok e1]
  obtain ⟨s2, e2, h2⟩ := decl_run h1 6
  rw [bind_ok e2]
  obtain ⟨s3, e3, h3⟩ := ecpInitList_calm hw hK h2
  obtain ⟨bs, e4, hbs⟩ := cutMsg_run hw0 (v := g + 6) (s := s3) (n := n) (hd.ord _ (by have := h3.objs (g + 6) (by omega); rwa [NV.lo hg] at this)) msg
  have fin : ∀ {c : List Byte → M Int} {s' : St} {st : Int} {L : List Int}, c bs s3 = .ok (st, s') →
      At K (NV w sp A L) (sp + 8) s' →
      ∃ s'', (do
        let st ← chk (ecpInitList w [sp + 2, sp + 5]) (do
          let m ← cutMsg w (g + 6) msg
          let st ← c m
          ecpClearList [sp + 2, sp + 5]
          pure st)
        clearList [sp, sp + 1, sp + 2, sp + 3, sp + 5, sp + 6]
        pure st : M Int) s2 = .ok (st, s'') ∧ At K A sp s'' := by
    intro c s' st L e h
    obtain ⟨t1, t2, c1, c2, h'⟩ := ecdsaVerify_clear h
    refine ⟨t2, ?_, h'⟩
    have : chk (ecpInitList w [sp + 2, sp + 5]) (do
          let m ← cutMsg w (g + 6) msg
          let st ← c m
          ecpClearList [sp + 2, sp + 5]
          pure st) s2 = .ok (st, t1) := by
      rw [chk_ok e3]
      rw [bind_ok e4, bind_ok e, bind_ok c1]; rfl
    rw [bind_ok this, bind_ok c2]; rfl
  set Z : Nat := cutVal w n msg with hZ
  let body : List Byte → M Int := fun m => chk (loadBin w sp m) <|
    chk (copy (sp + 1) t) <|
    chk (inv w (sp + 8) (sp + 1) (sp + 1) (g + 6)) <|
    chk (mul w (sp + 8) sp sp (sp + 1)) <|
    chk (mod w (sp + 8) sp sp (g + 6)) <|
    chk (mul w (sp + 8) (sp + 1) r (sp + 1)) <|
    chk (mod w (sp + 8) (sp + 1) (sp + 1) (g + 6)) <|
    chk (ecpMul w (sp + 8) (sp + 2) (g + 3) sp g) <|
    chk (ecpMul w (sp + 8) (sp + 5) q (sp + 1) g) <|
    chk (ecpAdd w (sp + 8) (sp + 2) (sp + 2) (sp + 5) g) <|
    chk (mod w (sp + 8) (sp + 2) (sp + 2) (g + 6)) do
      let c ← cmpAbs (sp + 2) r
      pure (if c = 0 then 0 else -1)
  have sn : ∀ L, Src w sp 8 A L (g + 6) n := fun L => Src.arg hg hd.ord
  obtain ⟨s5, e5, h5⟩ := cn_loadBin hw hK h3 rfl (r := sp) (i := 0) (by omega) (by omega) (by simp) bs rfl rfl
  rw [hbs] at h5
  obtain ⟨s6, e6, h6⟩ := cn_copy hK h5 rfl (r := sp + 1) (i := 1) rfl (by omega) (x := t) (Src.arg ht at') rfl
  have h6 : At K (NV w sp A [(Z : Int), T, 1, 1, 0, 1, 1, 0]) (sp + 8) s6 := h6
  obtain ⟨i1, i2⟩ := cn_inv (S := sp + 8) rfl hw hK h6 rfl (r := sp + 1) (i := 1) rfl (by omega) (x := sp + 1) (Src.loc (j := 1) rfl (by omega)) (sn _) (by omega) (by omega)
  have hget : ([(Z : Int), T, 1, 1, 0, 1, 1, 0].getD 1 0) = T := rfl
  rw [hget] at i1 i2
  by_cases hgc : Int.gcd T n = 1
  · obtain ⟨s7, v, e7, ⟨v0, v1, v2⟩, h7⟩ := i1 hgc
    obtain ⟨V, rfl⟩ := Int.eq_ofNat_of_zero_le v0
    obtain ⟨s8, e8, h8⟩ := cn_mul (S := sp + 8) rfl hw hK h7 rfl (r := sp) (i := 0) rfl (by omega) (Src.loc (j := 0) rfl (by omega)) (Src.loc (j := 1) rfl (by omega)) rfl rfl
    obtain ⟨s9, e9, h9⟩ := cn_mod (S := sp + 8) rfl hw hK h8 rfl (r := sp) (i := 0) rfl (by omega) (Src.loc (j := 0) rfl (by omega)) (sn _) (by omega) (by omega) rfl rfl
    obtain ⟨s10, e10, h10⟩ := cn_mul (S := sp + 8) rfl hw hK h9 rfl (r := sp + 1) (i := 1) rfl (by omega) (Src.arg hr ar) (Src.loc (j := 1) rfl (by omega)) rfl rfl
    obtain ⟨s11, e11, h11⟩ := cn_mod (S := sp + 8) rfl hw hK h10 rfl (r := sp + 1) (i := 1) rfl (by omega) (Src.loc (j := 1) rfl (by omega)) (sn _) (by omega) (by omega) rfl rfl
    have h11 : At K (NV w sp A [(Z : Int) * V % n, R * V % n, 1, 1, 0, 1, 1, 0]) (sp + 8) s11 := h11
    have u1 : (Z : Int) * V % n = ((Z * V % n : Nat) : Int) := by push_cast; rfl
    obtain ⟨u, hu⟩ := Int.eq_ofNat_of_zero_le (Int.emod_nonneg (R * V) (show (n : Int) ≠ 0 by omega))
    rw [u1, hu] at h11
    have run : ∀ {k : M Int} {st : Int} {s' : St}, k s11 = .ok (st, s') →
        (chk (loadBin w sp bs) <| chk (copy (sp + 1) t) <| chk (inv w (sp + 8) (sp + 1) (sp + 1) (g + 6)) <| chk (mul w (sp + 8) sp sp (sp + 1)) <|
            chk (mod w (sp + 8) sp sp (g + 6)) <| chk (mul w (sp + 8) (sp + 1) r (sp + 1)) <| chk (mod w (sp + 8) (sp + 1) (sp + 1) (g + 6)) k) s3 =
          .ok (st, s') := by
      intro k st s' e
      exact (chk_ok e5).trans <| (chk_ok e6).trans <| (chk_ok e7).trans <| (chk_ok e8).trans <| (chk_ok e9).trans <| (chk_ok e10).trans <| (chk_ok e11).trans e
    rcases cn_ecpMul (F := False) (S := sp + 8) rfl hw hK (Or.inr (fun k => Ecp.nsmul_two_torsion hd.hodd k)) h11 rfl (r := sp + 2) (i := 2) rfl (by omega)
      (kk := sp) (j := 0) rfl (by omega) rfl (by omega) hd.grp (by omega) b1 b2 with ⟨f, -⟩ | ⟨s12, x1, y1, z1, e12, h12, o1, o2⟩
    · exact f.elim
    have h12 : At K (NV w sp A [((Z * V % n : Nat) : Int), (u : Int), x1, y1, z1, 1, 1, 0]) (sp + 8) s12 := h12
    rcases cn_ecpMul (F := ¬ Odd (addOrderOf Q)) (S := sp + 8) rfl hw hK (Classical.or_iff_not_imp_left.2 fun ho k => Ecp.nsmul_two_torsion (not_not.1 ho) k) h12 rfl
      (r := sp + 5) (i := 5) rfl (by omega) (kk := sp + 1) (j := 1) rfl (by omega) rfl (by omega) hd.grp hq aq hon with ⟨f, s13, e13, h13⟩ | ⟨s13, x2, y2, z2, e13, h13, o3, o4⟩
    · obtain ⟨s', e', h'⟩ := fin (c := body) (run ((chk_ok e12).trans (chk_fail e13 (by decide)))) h13
      exact ⟨-1, s', e', h', Or.inr rfl, fun h => absurd h (by decide), fun h => absurd h f⟩
    have h13 : At K (NV w sp A [((Z * V % n : Nat) : Int), (u : Int), x1, y1, z1, x2, y2, z2]) (sp + 8) s13 := h13
    obtain ⟨s14, x3, y3, z3, e14, o5, o6, h14⟩ := (ecpAdd_calm hw hK h13 (p1 := sp + 2) (p2 := sp + 5) (pr := sp + 2) (by omega) (by omega) (by omega) (by omega)
      (by omega) (by omega) nv_pt3 nv_at3 nv_at3 (hd.grp.lo (by omega)) (P := (Z * V % n) • G) (Q := u • Q) o1 o3).1
      (fun e => e.2.1 (Ecp.nsmul_two_torsion hd.hodd _ e.2.2))
    have h14 : At K (NV w sp A [((Z * V % n : Nat) : Int), (u : Int), x3, y3, z3, x2, y2, z2]) (sp + 8) s14 := h14.le (but3_nv (by simp))
    have hx := redPt_x o5 (o6 (o2 b3) (o4 hred))
    obtain ⟨s15, e15, h15⟩ := cn_mod (S := sp + 8) rfl hw hK h14 rfl (r := sp + 2) (i := 2) rfl (by omega) (Src.loc (x := sp + 2) (j := 2) rfl (by omega)) (sn _) (by omega) (by omega) rfl rfl
    obtain ⟨c, e16, c1, -⟩ := cmpAbs_shows (Src.get (Src.loc (x := sp + 2) (j := 2) rfl (by omega)) h15) (Src.get (Src.arg hr ar) h15)
    have c1 : c = 0 ↔ (x3 % n).natAbs = R.natAbs := c1
    have key : c = 0 ↔ Ecdsa.Equation n G Q Z R T := by
      rw [c1, ecdsa_equation_iff v2, hx, hu]
      rfl
    have e16 : (do let c ← cmpAbs (sp + 2) r; pure (if c = 0 then 0 else -1) : M Int) s15 = .ok (if c = 0 then 0 else -1, s15) := by
      rw [bind_ok e16]; rfl
    obtain ⟨s', e', h'⟩ := fin (c := body) (run ((chk_ok e12).trans <| (chk_ok e13).trans <| (chk_ok e14).trans <| (chk_ok e15).trans e16)) h15
    refine ⟨_, s', e', h', ?_, fun h => ?_, fun _ h => if_pos (key.2 h)⟩
    · split_ifs <;> simp
    · by_contra hc
      rw [if_neg fun h' => hc (key.1 h')] at h; exact absurd h (by decide)
  · obtain ⟨s7, e7, h7⟩ := i2 hgc
    obtain ⟨s', e', h'⟩ := fin (c := body) ((chk_ok e5).trans <| (chk_ok e6).trans <| chk_fail e7 (by decide)) h7
    exact ⟨-1, s', e', h', Or.inr rfl, fun h => absurd h (by decide), fun _ h => absurd (ecdsa_equation_gcd h) hgc⟩

/-- The clean-up of `cry_ecdsa_sign`. -/
theorem ecdsaSign_clear (h : At K (NV w sp A L) (sp + 5) s) :
    ∃ s1 s2, ecpClear (sp + 2) s = .ok ((), s1) ∧ clearList [sp, sp + 1] s1 = .ok ((), s2) ∧ At K A sp s2 := by
  have hN : ∀ v, sp ≤ v → ∀ o, NV w sp A L v o → Null o ∨ ∃ m, o.Holds m := by
    intro v hv o ho
    obtain ⟨j, rfl⟩ : ∃ j, v = sp + j := ⟨v - sp, by omega⟩
    rw [NV.hi] at ho
    exact ho.any.clr
  obtain ⟨s1, e1, h1, -⟩ := clearList_at [sp + 2, sp + 2 + 1, sp + 2 + 2] _ s h (by intro a ha; simp at ha; omega)
    (fun v hv => hN v (by simp at hv; omega))
  obtain ⟨s3, e3, h3, -⟩ := clearList_at [sp, sp + 1] _ s1 h1 (by intro a ha; simp at ha; omega) (by
    intro v hv o ho
    unfold Sets at ho
    rw [if_neg (by simp at hv ⊢; omega)] at ho
    exact hN v (by simp at hv; omega) o ho)
  refine ⟨s1, s3, e1, e3, ?_⟩
  refine (exit_at h3 fun v h1 h2 o ho => ?_).le fun v hv o ho => ?_
  · unfold Sets at ho
    split_ifs at ho with a1 a2
    · rw [ho]; rfl
    · rw [ho]; rfl
    · simp at a1 a2; omega
  · unfold Sets at ho
    rw [if_neg (by simp; omega), if_neg (by simp; omega), NV.lo hv] at ho
    exact ho

/-- Signing: when the random number is not zero, `r` is the abscissa of its multiple of the base point, and `s` fits. -/
theorem ecdsaSign_calm (hw : DigitWidth w) (hK : K.Calm) (h : At K A sp s) {d r t : Nat} {D : Int}
    (hg : g + 6 < sp) (hd : d < sp) (hr : r < sp) (ht : t < sp) (hG : DomAt w p a b A g za G n)
    (rd : r ≠ d) (rn : r ≠ g + 6) (rt : r ≠ t) (tn : t ≠ g + 6) (ad : ∀ o, A d o → o.Shows w D) (ar : ∀ o, A r o → Any w o) (at' : ∀ o, A t o → Any w o)
    (msg bs : List Byte) (hl : bs.length = (n.size + 7) / 8) (hV : (2 ^ w) ^ ((n.size - 1) / w) ≤ beVal bs) :
    ∃ s', ecdsaSign w sp g d r t msg bs s = .ok (0, s') ∧
      (rangeVal n bs = 0 → At K (Function.update A r (V w 1 0)) sp s') ∧
      (rangeVal n bs ≠ 0 → ∃ T, At K (Function.update (Function.update A r (V w (ptX (rangeVal n bs • G)) 0)) t (V w T 0)) sp s' ∧ 0 ≤ T ∧ T < n ∧
        rangeVal n bs * T ≡ cutVal w n msg + D * ptX (rangeVal n bs • G) [ZMOD n]) := by
  have hw0 : 0 < w := by have := hw.pos; omega
  have hn := hG.prime.one_lt
  have : NeZero p := ⟨(Fact.out : p.Prime).ne_zero⟩
  obtain ⟨bx, by', bz, b1, b2, b3⟩ := hG.base
  obtain ⟨s0, e0, h0⟩ := decl_run h 2
  unfold ecdsaSign
  rw [bind_ok e0]
  have hlist : ∀ v, v ∈ [sp, sp + 1] ↔ sp ≤ v ∧ v < sp + 2 := by
    intro v; simp only [List.mem_cons, List.not_mem_nil, or_false]; omega
  obtain ⟨s1, e1, h1⟩ := initList_calm hw0 hK h0 hlist (by simp)
  rw [chk_ok e1]
  obtain ⟨s2, e2, h2⟩ := decl_run h1 3
  rw [bind_ok e2]
  obtain ⟨s3, e3, h3⟩ := ecpInit_calm hw hK h2 (q := sp + 2) (by omega) (by
    intro v hv1 hv2 o ho
    unfold Locals at ho
    rw [if_neg (by omega)] at ho
    rw [ho]; rfl)
  have h3 : At K (NV w sp A [0, 0, 1, 1, 0]) (sp + 5) s3 := h3.le (by
    intro v hv o ho
    by_cases hs : v < sp + 2
    · rw [But3.ne (by omega), Locals.lo hs] at ho
      by_cases hs' : v < sp
      · rw [NV.lo hs'] at *; exact ho
      · obtain ⟨j, rfl⟩ : ∃ j, v = sp + j := ⟨v - sp, by omega⟩
        rw [NV.hi] at *
        obtain rfl | rfl : j = 0 ∨ j = 1 := by omega
        · exact ho
        · exact ho
    · obtain rfl | rfl | rfl : v = sp + 2 ∨ v = sp + 2 + 1 ∨ v = sp + 2 + 2 := by omega
      · rw [NV.hi]; rw [But3.atX] at ho; exact ho
      · rw [Nat.add_assoc, NV.hi]; rw [But3.atY] at ho; exact ho
      · rw [Nat.add_assoc, NV.hi]; rw [But3.atZ] at ho; exact ho)
  rw [bind_ok e3, if_pos rfl]
  obtain ⟨m, e4, hm⟩ := cutMsg_run hw0 (v := g + 6) (s := s3) (n := n) (hG.ord _ (by have := h3.objs (g + 6) (by omega); rwa [NV.lo hg] at this)) msg
  rw [bind_ok e4]
  set Z : Nat := cutVal w n msg with hZ
  set k : Nat := rangeVal n bs with hk
  obtain ⟨s5, e5, h5⟩ := cn_loadBin hw hK h3 rfl (r := sp + 1) (i := 1) rfl (by omega) (by simp) m rfl rfl
  rw [hm] at h5
  have h5 : At K (NV w sp A [0, (Z : Int), 1, 1, 0]) (sp + 5) s5 := h5
  obtain ⟨s6, e6, h6⟩ := cn_leaf hK h5 (i := 0) (by omega) rfl (randRange_leaf hw (S := sp + 5) (r := sp) (x := g + 6) (Nums.val h5 (j := 0) (by omega)) (by simp)
    (hG.ord _ (by have := h5.objs (g + 6) (by omega); rwa [NV.lo hg] at this)) (by omega) (by omega) (by omega) (by omega) bs hl hV) rfl
  have h6 : At K (NV w sp A [(k : Int), (Z : Int), 1, 1, 0]) (sp + 5) s6 := h6
  rcases cn_ecpMul (F := False) (S := sp + 5) rfl hw hK (Or.inr (fun k => Ecp.nsmul_two_torsion hG.hodd k)) h6 rfl (r := sp + 2) (i := 2) rfl (by omega)
    (kk := sp) (j := 0) rfl (by omega) rfl (by omega) hG.grp (by omega) b1 b2 with ⟨f, -⟩ | ⟨s7, x, y, z, e7, h7, o1, o2⟩
  · exact f.elim
  have h7 : At K (NV w sp A [(k : Int), (Z : Int), x, y, z]) (sp + 5) s7 := h7
  have hx := redPt_x o1 (o2 b3)
  obtain ⟨s8, x', e8, h8⟩ := cn_swap h7 rfl hr ar (x := sp + 2) (i := 2) rfl (by omega)
  have h8 : At K (NV w sp (Function.update A r (V w (ptX (k • G)) 0)) [(k : Int), (Z : Int), x', y, z]) (sp + 5) s8 := by rw [← hx]; exact h8
  set R : Int := ((ptX (k • G) : Nat) : Int) with hR
  set B : Env := Function.update A r (V w R 0) with hB
  have bn : ∀ o, B (g + 6) o → o.Shows w n := fun o ho => hG.ord o (by rwa [hB, Function.update_of_ne rn.symm] at ho)
  have bd : ∀ o, B d o → o.Shows w D := fun o ho => ad o (by rwa [hB, Function.update_of_ne rd.symm] at ho)
  have bt : ∀ o, B t o → Any w o := fun o ho => at' o (by rwa [hB, Function.update_of_ne rt.symm] at ho)
  have br : ∀ o, B r o → o.Shows w R := fun o ho => by rw [hB, Function.update_self] at ho; exact ho.shows
  obtain ⟨i1, i2⟩ := cn_inv (S := sp + 5) rfl hw hK h8 rfl (r := sp) (i := 0) rfl (by omega) (x := sp) (Src.loc (j := 0) rfl (by omega)) (Src.arg hg bn) (by omega) (by omega)
  have hget : ([(k : Int), (Z : Int), x', y, z].getD 0 0) = k := rfl
  rw [hget] at i1 i2
  have hkn : k < n := Nat.mod_lt _ (by omega)
  have fin : ∀ {c : M Int} {A' : Env} {L : List Int} {st : Int} {s' : St}, c s3 = .ok (st, s') → At K (NV w sp A' L) (sp + 5) s' →
      ∃ s'', (do
        let _ ← c
        ecpClear (sp + 2)
        clearList [sp, sp + 1]
        pure 0 : M Int) s3 = .ok (0, s'') ∧ At K A' sp s'' := by
    intro c A' L st s' e h
    obtain ⟨t1, t2, c1, c2, h'⟩ := ecdsaSign_clear h
    exact ⟨t2, by rw [bind_ok e, bind_ok c1, bind_ok c2]; rfl, h'⟩
  let body : M Int :=
    chk (loadBin w (sp + 1) m) <|
    chk (randRange w (sp + 5) sp (g + 6) bs) <|
    chk (ecpMul w (sp + 5) (sp + 2) (g + 3) sp g) do
      swap r (sp + 2)
      chk (inv w (sp + 5) sp sp (g + 6)) <|
        chk (mul w (sp + 5) t d r) <|
        chk (add (2 ^ w) t t (sp + 1)) <|
        chk (mul w (sp + 5) t t sp) <|
        chk (mod w (sp + 5) t t (g + 6)) (pure 0)
  have run : body s3 = (chk (inv w (sp + 5) sp sp (g + 6)) <|
        chk (mul w (sp + 5) t d r) <|
        chk (add (2 ^ w) t t (sp + 1)) <|
        chk (mul w (sp + 5) t t sp) <|
        chk (mod w (sp + 5) t t (g + 6)) (pure 0)) s8 := by
    refine (chk_ok e5).trans <| (chk_ok e6).trans <| (chk_ok e7).trans ?_
    exact bind_ok e8
  by_cases hk0 : k = 0
  · obtain ⟨s9, e9, h9⟩ := i2 (by rw [hk0, Nat.cast_zero, Int.gcd_zero_left, Int.natAbs_natCast]; omega)
    obtain ⟨s', e', h'⟩ := fin (c := body) (run.trans <| chk_fail e9 (by decide)) h9
    refine ⟨s', e', fun _ => ?_, fun h => absurd hk0 h⟩
    have : R = 1 := by rw [hR, hk0, zero_nsmul]; rfl
    rw [hB, this] at h'
    exact h'
  · have hgc : Int.gcd (k : Int) n = 1 := by
      rw [Int.gcd_natCast_natCast]
      exact (Nat.coprime_of_lt_prime (by omega) hkn hG.prime).symm
    obtain ⟨s9, v, e9, ⟨v0, v1, v2⟩, h9⟩ := i1 hgc
    have h9 : At K (NV w sp B [v, (Z : Int), x', y, z]) (sp + 5) s9 := h9
    have g1 : ∀ {r : Nat} {P : Obj → Prop} {L : List Int} {s : St} {B : Env}, r < sp → At K (NV w sp (Function.update B r P) L) (sp + 5) s → P (s.obj r) := by
      intro r P L s B hr h
      have := h.objs r (by omega); rwa [NV.lo hr, Function.update_self] at this
    obtain ⟨zt, ht0⟩ := bt _ (by have := h9.objs t (by omega); rwa [NV.lo ht] at this)
    obtain ⟨s10, e10, h10⟩ := ca_leaf hK h9 (r := t) ht (mul_leaf (x := d) (y := r) hw.pos ht0.r (shows_rs (Src.get (Src.arg hd bd) h9)) (shows_rs (Src.get (Src.arg hr br) h9)) (by omega) (by omega) (by omega) (Or.inl rfl))
    obtain ⟨s11, e11, h11⟩ := ca_leaf hK h10 (r := t) ht (add_leaf hw0 (y := sp + 1) (g1 ht h10) (g1 ht h10).shows (Src.get (Src.loc (x := sp + 1) (j := 1) rfl (by omega)) h10))
    rw [Function.update_idem] at h11
    obtain ⟨s12, e12, h12⟩ := ca_leaf hK h11 (r := t) ht (mul_leaf (y := sp) hw.pos (g1 ht h11).r (shows_rs (g1 ht h11).shows) (shows_rs (Src.get (Src.loc (x := sp) (j := 0) rfl (by omega)) h11)) (by omega) (by omega) (by omega) (Or.inl rfl))
    rw [Function.update_idem] at h12
    obtain ⟨s13, e13, h13⟩ := ca_leaf hK h12 (r := t) ht (mod_leaf hw (m := g + 6) (g1 ht h12).shows (Src.get (Src.argKeep hg tn.symm bn) h12) (by omega) (by omega)
      (show (0 : Int) < n by omega) (by omega) (g1 ht h12).any (Or.inr tn.symm))
    rw [Function.update_idem] at h13
    obtain ⟨s', e', h'⟩ := fin (c := body) (run.trans <| (chk_ok e9).trans <|
      (chk_ok e10).trans <| (chk_ok e11).trans <| (chk_ok e12).trans <| (chk_ok e13).trans (rfl : (pure 0 : M Int) s13 = _)) h13
    refine ⟨s', e', fun h => absurd h hk0, fun _ => ⟨_, h', Int.emod_nonneg _ (by omega), Int.emod_lt_of_pos _ (by omega), ?_⟩⟩
    show (k : Int) * ((D * R + Z) * v % n) ≡ Z + D * R [ZMOD n]
    have a1 : (k : Int) * ((D * R + Z) * v % n) ≡ k * ((D * R + Z) * v) [ZMOD n] := (Int.mod_modEq _ _).mul_left _
    refine a1.trans ?_
    have a2 : (k : Int) * v ≡ 1 [ZMOD n] := v2
    have a3 := a2.mul_left (D * R + Z)
    rw [mul_one] at a3
    rw [show (k : Int) * ((D * R + Z) * v) = (D * R + Z) * (k * v) by ring, add_comm (Z : Int)]
    exact a3

end
end Verif.Mem
