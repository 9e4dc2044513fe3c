import Verif.Lemmas.Mem.Calm
import Verif.Lemmas.Ecp.Curve
import Verif.Model.Mem.Ecp
import Verif.Spec.MemEcp
/-! Points of elliptic curves in memory, when no allocation fails. -/
namespace Verif.Mem
open Verif.Mpi

variable {w : Nat}

/-- The environment with other numbers in the point `q`. -/
def But3 (w : Nat) (A : Env) (q : Nat) (x y z : Int) : Env :=
  Function.update (Function.update (Function.update A q (V w x 0)) (q + 1) (V w y 0)) (q + 2) (V w z 0)

section
variable {A : Env} {q v : Nat} {x y z : Int}
theorem But3.atX : But3 w A q x y z q = V w x 0 := by
  unfold But3; rw [Function.update_of_ne (by omega), Function.update_of_ne (by omega), Function.update_self]
theorem But3.atY : But3 w A q x y z (q + 1) = V w y 0 := by
  unfold But3; rw [Function.update_of_ne (by omega), Function.update_self]
theorem But3.atZ : But3 w A q x y z (q + 2) = V w z 0 := by
  unfold But3; rw [Function.update_self]
theorem But3.ne (h : v ≠ q ∧ v ≠ q + 1 ∧ v ≠ q + 2) : But3 w A q x y z v = A v := by
  unfold But3; rw [Function.update_of_ne h.2.2, Function.update_of_ne h.2.1, Function.update_of_ne h.1]
end

/-- The three coordinates hold numbers. -/
structure Pt3 (w : Nat) (A : Env) (q : Nat) : Prop where
  x : ∀ o, A q o → Any w o
  y : ∀ o, A (q + 1) o → Any w o
  z : ∀ o, A (q + 2) o → Any w o

/-- The three coordinates read as given. -/
structure At3 (w : Nat) (A : Env) (q : Nat) (x y z : Int) : Prop where
  x : ∀ o, A q o → o.Shows w x
  y : ∀ o, A (q + 1) o → o.Shows w y
  z : ∀ o, A (q + 2) o → o.Shows w z

theorem v_shows {o : Obj} {z z' : Int} (h : V w z 0 o) (h' : o.Shows w z') : V w z' 0 o := by
  have : z = z' := by
    obtain ⟨m, m1, m2, m3⟩ := h
    obtain ⟨m', n1, n2, n3⟩ := h'
    rw [← m2, ← n2, same_num m3.1.reads n3]
  rwa [← this]

theorem bind_congr_run {α β : Type} {c c' : M α} {f : α → M β} {s s' : St} (h : c s = c' s') : (c >>= f) s = (c' >>= f) s' := by
  show (match c s with | .ok (a, s') => f a s' | .ub => .ub | .hang => .hang) = (match c' s' with | .ok (a, s') => f a s' | .ub => .ub | .hang => .hang)
  rw [h]

section
variable {K : Ctx} {A : Env} {sp N : Nat} {s : St} {L L' : List Int} {q g : Nat} {x y z : Int}

/-- Exchange of a point of the caller with a local one. -/
theorem ecpSwap_calm {i : Nat} (h : At K (NV w sp A L) (sp + N) s) (hL : L.length = N) (hq : q + 2 < sp) (hA : Pt3 w A q)
    (hx : x = L.getD i 0) (hy : y = L.getD (i + 1) 0) (hz : z = L.getD (i + 2) 0) (hi : i + 2 < N) :
    ∃ s' L', ecpSwap q (sp + i) s = .ok ((), s') ∧ L'.length = N ∧ At K (NV w sp (But3 w A q x y z) L') (sp + N) s' := by
  have g1 : ∀ (L : List Int) (i j : Nat) (z : Int), i ≠ j → (L.set i z).getD j 0 = L.getD j 0 := fun L i j z h => by
    rw [List.getD_eq_getElem?_getD, List.getElem?_set_ne h, ← List.getD_eq_getElem?_getD]
  obtain ⟨s1, z1, e1, h1⟩ := cn_swap h hL (r := q) (i := i) (by omega) hA.x rfl (by omega)
  obtain ⟨s2, z2, e2, h2⟩ := cn_swap (r := q + 1) (i := i + 1) (x := sp + i + 1) h1 (by simpa using hL) (by omega)
    (by rw [Function.update_of_ne (by omega)]; exact hA.y) (by omega) (by omega)
  obtain ⟨s3, z3, e3, h3⟩ := cn_swap (r := q + 2) (i := i + 2) (x := sp + i + 2) h2 (by simpa using hL) (by omega)
    (by rw [Function.update_of_ne (by omega), Function.update_of_ne (by omega)]; exact hA.z) (by omega) (by omega)
  refine ⟨s3, ((L.set i z1).set (i + 1) z2).set (i + 2) z3, ?_, ?_, ?_⟩
  · unfold ecpSwap; rw [bind_ok e1, bind_ok e2, e3]
  · simpa using hL
  · rw [g1 _ _ _ _ (by omega), g1 _ _ _ _ (by omega), g1 _ _ _ _ (by omega), ← hx, ← hy, ← hz] at h3
    exact h3

/-- The test for the point at infinity. -/
theorem ecpIsZero_run (h : (s.obj (q + 2)).Shows w z) : ecpIsZero q s = .ok (decide (z = 0), s) := by
  obtain ⟨hd, e, h1⟩ := shows_used h
  unfold ecpIsZero
  rw [bind_ok (hdr_ok e)]
  have : (hd.used == 0) = decide (z = 0) := by rw [Bool.eq_iff_iff, beq_iff_eq, decide_eq_true_iff, h1]
  rw [this]; rfl

/-- `cry_ecp_copy` between different points, or of a point to itself. -/
theorem ecpCopy_calm {d : Nat} (hK : K.Calm) (h : At K A sp s) (hd : d + 2 < sp) (hq : q + 2 < sp) (hA : Pt3 w A d) (hP : At3 w A q x y z)
    (hdq : d = q ∨ d + 2 < q ∨ q + 2 < d) : ∃ s', ecpCopy d q s = .ok (0, s') ∧ At K (But3 w A d x y z) sp s' := by
  obtain ⟨z1, v1⟩ := hA.x _ (h.objs _ (by omega))
  obtain ⟨s1, e1, h1⟩ := calm_leaf hK h (r := d) (by omega) (copy_leaf (sp := sp) v1 (hP.x _ (h.objs _ (by omega))))
  have a1 : (A (d + 1)) (s1.obj (d + 1)) := by
    have := h1.objs (d + 1) (by omega); rwa [Function.update_of_ne (by omega)] at this
  have b1 : (A (q + 1)) (s1.obj (q + 1)) := by
    have := h1.objs (q + 1) (by omega); rwa [Function.update_of_ne (by omega)] at this
  obtain ⟨z2, v2⟩ := hA.y _ a1
  obtain ⟨s2, e2, h2⟩ := calm_leaf hK h1 (r := d + 1) (by omega) (copy_leaf (sp := sp) v2 (hP.y _ b1))
  have a2 : (A (d + 2)) (s2.obj (d + 2)) := by
    have := h2.objs (d + 2) (by omega); rwa [Function.update_of_ne (by omega), Function.update_of_ne (by omega)] at this
  have b2 : (A (q + 2)) (s2.obj (q + 2)) := by
    have := h2.objs (q + 2) (by omega); rwa [Function.update_of_ne (by omega), Function.update_of_ne (by omega)] at this
  obtain ⟨z3, v3⟩ := hA.z _ a2
  obtain ⟨s3, e3, h3⟩ := calm_leaf hK h2 (r := d + 2) (by omega) (copy_leaf (sp := sp) v3 (hP.z _ b2))
  refine ⟨s3, ?_, h3⟩
  unfold ecpCopy
  rw [chk_ok e1, chk_ok e2, e3]

/-- A point seen as holding what it shows. -/
theorem at_self (h : At K A sp s) (hq : q + 2 < sp) (hA : Pt3 w A q) (hP : At3 w A q x y z) : At K (But3 w A q x y z) sp s := by
  obtain ⟨z1, v1⟩ := hA.x _ (h.objs _ (by omega))
  obtain ⟨z2, v2⟩ := hA.y _ (h.objs _ (by omega))
  obtain ⟨z3, v3⟩ := hA.z _ (h.objs _ (by omega))
  have h1 := step_at (P := V w x 0) h (r := q) (by omega) (Step.refl _ _ _) (v_shows v1 (hP.x _ (h.objs _ (by omega))))
  have h2 := step_at (P := V w y 0) h1 (r := q + 1) (by omega) (Step.refl _ _ _) (v_shows v2 (hP.y _ (h.objs _ (by omega))))
  exact step_at (P := V w z 0) h2 (r := q + 2) (by omega) (Step.refl _ _ _) (v_shows v3 (hP.z _ (h.objs _ (by omega))))

/-- `cry_ecp_set_zero`. -/
theorem ecpSetZero_calm (hw : DigitWidth w) (hK : K.Calm) (h : At K A sp s) (hq : q + 2 < sp) (hA : Pt3 w A q) :
    ∃ s', (∀ k, ecpSetZero w q k s = k s') ∧ At K (But3 w A q 1 1 0) sp s' := by
  obtain ⟨z1, v1⟩ := hA.x _ (h.objs _ (by omega))
  obtain ⟨s1, e1, h1⟩ := calm_leaf hK h (r := q) (by omega) (setInt_leaf (S := sp) hw v1 (v := 1) (by norm_num))
  have a1 : (A (q + 1)) (s1.obj (q + 1)) := by
    have := h1.objs (q + 1) (by omega); rwa [Function.update_of_ne (by omega)] at this
  obtain ⟨z2, v2⟩ := hA.y _ a1
  obtain ⟨s2, e2, h2⟩ := calm_leaf hK h1 (r := q + 1) (by omega) (setInt_leaf (S := sp) hw v2 (v := 1) (by norm_num))
  have a2 : (A (q + 2)) (s2.obj (q + 2)) := by
    have := h2.objs (q + 2) (by omega); rwa [Function.update_of_ne (by omega), Function.update_of_ne (by omega)] at this
  obtain ⟨z3, v3⟩ := hA.z _ a2
  obtain ⟨s3, e3, h3⟩ := calm_leaf hK h2 (r := q + 2) (by omega) (setInt_leaf (S := sp) hw v3 (v := 0) (by norm_num))
  refine ⟨s3, fun k => ?_, h3⟩
  unfold ecpSetZero
  rw [ign_run e1, ign_run e2, ign_run e3]

end

/-! ### The coefficient `a` -/

/-- The coefficient of a group: a number, or the constant of one zero digit that three of the built-in groups have
(src/ecp/ecp_curves.c), which is not normalised. -/
def Coef (w : Nat) (P : Obj → Prop) (za : Int) (nz : Prop) : Prop :=
  (∀ o, P o → o.Shows w za) ∨ ((∀ o, P o → o.Reads ⟨false, [0]⟩) ∧ za = 0 ∧ nz)

theorem add_coef_leaf (hw : 0 < w) {sp r x y : Nat} {s : St} {zr zx : Int} (hr : V w zr 0 (s.obj r)) (hx : (s.obj x).Shows w zx)
    (hy : (s.obj y).Reads ⟨false, [0]⟩) (hz : 0 < zx) : Leaf sp s r (add (2 ^ w) r x y) (V w zx 0) (V w zr 0) := by
  obtain ⟨mr, r1, r2, r3⟩ := hr
  obtain ⟨mx, x1, x2, x3⟩ := hx
  have hn : mx.neg = false := V.nonneg_sign (n := 0) (o := s.obj x) hw x1 x2 (by omega)
  have hd : mx.digs ≠ [] := fun h => by
    have := (Mpi.toInt_eq_zero_iff (Nat.two_pow_pos w) x1.toNorm).2 h
    omega
  have e : add (2 ^ w) r x y s = signed (addAbs (2 ^ w) r x y) r false s := by
    obtain ⟨ax, hx1, hx2⟩ := x3
    obtain ⟨ay, hy1, hy2⟩ := hy
    unfold add
    rw [bind_ok (hdr_ok hx1), bind_ok (hdr_ok hy1), hn]
    exact congrFun (if_pos rfl) s
  have hadd : Mpi.addAbs (2 ^ w) mx ⟨false, [0]⟩ = mx := by
    obtain ⟨g, ds⟩ := mx
    cases ds with
    | nil => exact absurd rfl hd
    | cons d ds =>
      have hd : d < 2 ^ w := x1.toNorm.digits d (by simp)
      have hac : ∀ l, addCarry (2 ^ w) l 0 = l := by intro l; cases l <;> simp [addCarry]
      simp only at hn
      simp [Mpi.addAbs, Mpi.addLoop, Nat.mod_eq_of_lt hd, hac, hn]
  have h1 := (addAbs_run (sp := sp) (b := 2 ^ w) r3 x3 hy).mono (g' := fun o => HoldsC mx 0 o ∧ True)
    (fun o h => ⟨by rwa [hadd] at h, trivial⟩) (fun _ h => h)
  have h2 := setSign_leaf h1 false (fun _ _ _ => trivial)
  refine Leaf.congr (h2.mono (fun o h => ⟨mx, x1, x2, ?_⟩) (fun o h => ⟨mr, r1, r2, h⟩)) e
  have : mx = ⟨false, mx.digs⟩ := by rw [← hn]
  rw [this]; exact h.1

section
variable {K : Ctx} {A : Env} {sp N : Nat} {s : St} {L L' : List Int} {i r x c : Nat} {z zx za : Int} {nz : Prop}

theorem cn_coef (hw : DigitWidth w) (hK : K.Calm) (h : At K (NV w sp A L) (sp + N) s) (hL : L.length = N) (hr : r = sp + i) (hi : i < N)
    (hx : Src w sp N A L x zx) (hc : c < sp) (hA : Coef w (A c) za nz) (h0 : 0 ≤ zx) (hnz : nz → zx ≠ 0) (hz : z = zx + za)
    (hL' : L' = L.set i z) : ∃ s', add (2 ^ w) r x c s = .ok (0, s') ∧ At K (NV w sp A L') (sp + N) s' := by
  rcases hA with hA | ⟨hA, h1, h2⟩
  · exact cn_add hw hK h hL hr hi hx (Src.arg hc hA) hz hL'
  · have hw0 : 0 < w := by have := hw.pos; omega
    have := hnz h2
    subst hr hz
    rw [h1, add_zero] at hL'
    exact cn_leaf hK h hi hL (add_coef_leaf hw0 (Nums.val h hi) (hx.get h) (hA _ (Nums.arg h hc)) (by omega)) hL'

end

/-! ### Doubling and addition -/

/-- The part common to `cry_ecp_dbl` and `cry_ecp_add`, once `lam` is known. -/
def third (w sp pr p1 p2 g : Nat) : M Int :=
  chk (sqr w (sp + 6) (sp + 3) (sp + 2)) <|
  chk (mod w (sp + 6) (sp + 3) (sp + 3) g) <|
  chk (sub (2 ^ w) (sp + 3) (sp + 3) p1) <|
  chk (sub (2 ^ w) (sp + 3) (sp + 3) p2) <|
  chk (mod w (sp + 6) (sp + 3) (sp + 3) g) <|
  chk (sub (2 ^ w) (sp + 4) p1 (sp + 3)) <|
  chk (mul w (sp + 6) (sp + 4) (sp + 4) (sp + 2)) <|
  chk (mod w (sp + 6) (sp + 4) (sp + 4) g) <|
  chk (sub (2 ^ w) (sp + 4) (sp + 4) (p1 + 1)) <|
  chk (mod w (sp + 6) (sp + 4) (sp + 4) g) <|
  chk (setInt w (sp + 5) 1) do
    ecpSwap pr (sp + 3)
    pure 0

section
variable {K : Ctx} {A : Env} {sp : Nat} {s : St} {pr p1 p2 g : Nat} {n d l X1 Y1 X2 p za : Int} {nz : Prop}

theorem third_calm (hw : DigitWidth w) (hK : K.Calm) (h : At K (NV w sp A [n, d, l, 0, 0, 0]) (sp + 6) s)
    (h1 : p1 + 1 < sp) (h2 : p2 < sp) (hg : g < sp) (hpr : pr + 2 < sp) (hA : Pt3 w A pr)
    (hX1 : ∀ o, A p1 o → o.Shows w X1) (hY1 : ∀ o, A (p1 + 1) o → o.Shows w Y1) (hX2 : ∀ o, A p2 o → o.Shows w X2)
    (hp : ∀ o, A g o → o.Shows w p) (hp0 : 0 < p) :
    ∃ s' L' x y, third w sp pr p1 p2 g s = .ok (0, s') ∧ x = (l * l % p - X1 - X2) % p ∧ y = ((X1 - x) * l % p - Y1) % p ∧
      At K (NV w sp (But3 w A pr x y 1) L') (sp + 6) s' := by
  obtain ⟨x1, hx1⟩ : ∃ z, z = l * l := ⟨_, rfl⟩
  obtain ⟨x2, hx2⟩ : ∃ z, z = x1 % p := ⟨_, rfl⟩
  obtain ⟨x3, hx3⟩ : ∃ z, z = x2 - X1 := ⟨_, rfl⟩
  obtain ⟨x4, hx4⟩ : ∃ z, z = x3 - X2 := ⟨_, rfl⟩
  obtain ⟨x5, hx5⟩ : ∃ z, z = x4 % p := ⟨_, rfl⟩
  obtain ⟨y1, hy1⟩ : ∃ z, z = X1 - x5 := ⟨_, rfl⟩
  obtain ⟨y2, hy2⟩ : ∃ z, z = y1 * l := ⟨_, rfl⟩
  obtain ⟨y3, hy3⟩ : ∃ z, z = y2 % p := ⟨_, rfl⟩
  obtain ⟨y4, hy4⟩ : ∃ z, z = y3 - Y1 := ⟨_, rfl⟩
  obtain ⟨y5, hy5⟩ : ∃ z, z = y4 % p := ⟨_, rfl⟩
  obtain ⟨s1, e1, k1⟩ := cn_sqr (i := 3) (r := sp + 3) (x := sp + 2) (L' := [n, d, l, x1, 0, 0]) rfl hw hK h rfl rfl (by omega) (by show (0 : Int) ≤ 0; omega)
    (Src.loc (j := 2) rfl (by omega)) hx1 rfl
  obtain ⟨s2, e2, k2⟩ := cn_mod (i := 3) (r := sp + 3) (x := sp + 3) (L' := [n, d, l, x2, 0, 0]) rfl hw hK k1 rfl rfl (by omega)
    (Src.loc (j := 3) rfl (by omega)) (Src.arg hg hp) hp0 (by omega) hx2 rfl
  obtain ⟨s3, e3, k3⟩ := cn_sub (i := 3) (r := sp + 3) (x := sp + 3) (L' := [n, d, l, x3, 0, 0]) hw hK k2 rfl rfl (by omega)
    (Src.loc (j := 3) rfl (by omega)) (Src.arg (x := p1) (by omega) hX1) hx3 rfl
  obtain ⟨s4, e4, k4⟩ := cn_sub (i := 3) (r := sp + 3) (x := sp + 3) (L' := [n, d, l, x4, 0, 0]) hw hK k3 rfl rfl (by omega)
    (Src.loc (j := 3) rfl (by omega)) (Src.arg (x := p2) (by omega) hX2) hx4 rfl
  obtain ⟨s5, e5, k5⟩ := cn_mod (i := 3) (r := sp + 3) (x := sp + 3) (L' := [n, d, l, x5, 0, 0]) rfl hw hK k4 rfl rfl (by omega)
    (Src.loc (j := 3) rfl (by omega)) (Src.arg hg hp) hp0 (by omega) hx5 rfl
  obtain ⟨s6, e6, k6⟩ := cn_sub (i := 4) (r := sp + 4) (y := sp + 3) (L' := [n, d, l, x5, y1, 0]) hw hK k5 rfl rfl (by omega)
    (Src.arg (x := p1) (by omega) hX1) (Src.loc (j := 3) rfl (by omega)) hy1 rfl
  obtain ⟨s7, e7, k7⟩ := cn_mul (i := 4) (r := sp + 4) (x := sp + 4) (y := sp + 2) (L' := [n, d, l, x5, y2, 0]) rfl hw hK k6 rfl rfl (by omega)
    (Src.loc (j := 4) rfl (by omega)) (Src.loc (j := 2) rfl (by omega)) hy2 rfl
  obtain ⟨s8, e8, k8⟩ := cn_mod (i := 4) (r := sp + 4) (x := sp + 4) (L' := [n, d, l, x5, y3, 0]) rfl hw hK k7 rfl rfl (by omega)
    (Src.loc (j := 4) rfl (by omega)) (Src.arg hg hp) hp0 (by omega) hy3 rfl
  obtain ⟨s9, e9, k9⟩ := cn_sub (i := 4) (r := sp + 4) (x := sp + 4) (L' := [n, d, l, x5, y4, 0]) hw hK k8 rfl rfl (by omega)
    (Src.loc (j := 4) rfl (by omega)) (Src.arg (x := p1 + 1) (by omega) hY1) hy4 rfl
  obtain ⟨s10, e10, k10⟩ := cn_mod (i := 4) (r := sp + 4) (x := sp + 4) (L' := [n, d, l, x5, y5, 0]) rfl hw hK k9 rfl rfl (by omega)
    (Src.loc (j := 4) rfl (by omega)) (Src.arg hg hp) hp0 (by omega) hy5 rfl
  obtain ⟨s11, e11, k11⟩ := cn_setInt (i := 5) (r := sp + 5) (z := 1) (L' := [n, d, l, x5, y5, 1]) hw hK k10 rfl rfl (by omega)
    (by norm_num) rfl
  obtain ⟨s12, L', e12, -, k12⟩ := ecpSwap_calm (i := 3) k11 rfl hpr hA rfl rfl rfl (by omega)
  refine ⟨s12, L', x5, y5, ?_, by rw [hx5, hx4, hx3, hx2, hx1], by rw [hy5, hy4, hy3, hy2, hy1], k12⟩
  unfold third
  rw [chk_ok e1, chk_ok e2, chk_ok e3, chk_ok e4, chk_ok e5, chk_ok e6, chk_ok e7, chk_ok e8, chk_ok e9, chk_ok e10, chk_ok e11, bind_ok e12]
  rfl

theorem ecpDblBody_calm (hw : DigitWidth w) (hK : K.Calm) (h : At K (NV w sp A [0, 0, 0, 0, 0, 0]) (sp + 6) s)
    (h1 : p1 + 1 < sp) (hg : g + 1 < sp) (hpr : pr + 2 < sp) (hA : Pt3 w A pr)
    (hX1 : ∀ o, A p1 o → o.Shows w X1) (hY1 : ∀ o, A (p1 + 1) o → o.Shows w Y1)
    (hp : ∀ o, A g o → o.Shows w p) (hp0 : 0 < p) (ha : Coef w (A (g + 1)) za nz) (hnz : nz → 3 * X1 * X1 % p ≠ 0) :
    (Int.gcd (2 * Y1) p = 1 → ∃ s' L' x y d l, ecpDblBody w sp pr p1 g s = .ok (0, s') ∧ 2 * Y1 * d ≡ 1 [ZMOD p] ∧
      l = (3 * X1 * X1 % p + za) % p * (d % p) ∧
      x = (l * l % p - X1 - X1) % p ∧ y = ((X1 - x) * l % p - Y1) % p ∧
      At K (NV w sp (But3 w A pr x y 1) L') (sp + 6) s') ∧
    (Int.gcd (2 * Y1) p ≠ 1 → ∃ s' L', ecpDblBody w sp pr p1 g s = .ok (-1, s') ∧ At K (NV w sp A L') (sp + 6) s') := by
  obtain ⟨n1, hn1⟩ : ∃ z, z = 3 * X1 := ⟨_, rfl⟩
  obtain ⟨n2, hn2⟩ : ∃ z, z = n1 * X1 := ⟨_, rfl⟩
  obtain ⟨n3, hn3⟩ : ∃ z, z = n2 % p := ⟨_, rfl⟩
  obtain ⟨n4, hn4⟩ : ∃ z, z = n3 + za := ⟨_, rfl⟩
  obtain ⟨n5, hn5⟩ : ∃ z, z = n4 % p := ⟨_, rfl⟩
  obtain ⟨d1, hd1⟩ : ∃ z, z = 2 * Y1 := ⟨_, rfl⟩
  obtain ⟨s1, e1, k1⟩ := cn_setInt (i := 0) (r := sp) (z := 3) (L' := [3, 0, 0, 0, 0, 0]) hw hK h rfl rfl (by omega) (by norm_num) rfl
  obtain ⟨s2, e2, k2⟩ := cn_mul (i := 0) (r := sp) (x := sp) (zx := 3) (L' := [n1, 0, 0, 0, 0, 0]) rfl hw hK k1 rfl rfl (by omega)
    (Src.loc (j := 0) rfl (by omega)) (Src.arg (x := p1) (by omega) hX1) hn1 rfl
  obtain ⟨s3, e3, k3⟩ := cn_mul (i := 0) (r := sp) (x := sp) (zx := n1) (L' := [n2, 0, 0, 0, 0, 0]) rfl hw hK k2 rfl rfl (by omega)
    (Src.loc (j := 0) rfl (by omega)) (Src.arg (x := p1) (by omega) hX1) hn2 rfl
  obtain ⟨s4, e4, k4⟩ := cn_mod (i := 0) (r := sp) (x := sp) (zx := n2) (L' := [n3, 0, 0, 0, 0, 0]) rfl hw hK k3 rfl rfl (by omega)
    (Src.loc (j := 0) rfl (by omega)) (Src.arg (x := g) (by omega) hp) hp0 (by omega) hn3 rfl
  obtain ⟨s5, e5, k5⟩ := cn_coef (i := 0) (r := sp) (x := sp) (zx := n3) (L' := [n4, 0, 0, 0, 0, 0]) hw hK k4 rfl rfl (by omega)
    (Src.loc (j := 0) rfl (by omega)) hg ha (by rw [hn3]; exact Int.emod_nonneg _ (by omega)) (by rw [hn3, hn2, hn1]; exact hnz) hn4 rfl
  obtain ⟨s6, e6, k6⟩ := cn_mod (i := 0) (r := sp) (x := sp) (zx := n4) (L' := [n5, 0, 0, 0, 0, 0]) rfl hw hK k5 rfl rfl (by omega)
    (Src.loc (j := 0) rfl (by omega)) (Src.arg (x := g) (by omega) hp) hp0 (by omega) hn5 rfl
  obtain ⟨s7, e7, k7⟩ := cn_setInt (i := 1) (r := sp + 1) (z := 2) (L' := [n5, 2, 0, 0, 0, 0]) hw hK k6 rfl rfl (by omega) (by norm_num) rfl
  obtain ⟨s8, e8, k8⟩ := cn_mul (i := 1) (r := sp + 1) (x := sp + 1) (zx := 2) (L' := [n5, d1, 0, 0, 0, 0]) rfl hw hK k7 rfl rfl (by omega)
    (Src.loc (j := 1) rfl (by omega)) (Src.arg (x := p1 + 1) (by omega) hY1) hd1 rfl
  obtain ⟨i1, i2⟩ := cn_inv (S := sp + 6) (i := 1) (r := sp + 1) (x := sp + 1) (zx := d1) rfl hw hK k8 rfl rfl (by omega)
    (Src.loc (j := 1) rfl (by omega)) (Src.arg (x := g) (by omega) hp) hp0 (by omega)
  constructor
  · intro hgcd
    obtain ⟨s9, d, e9, ⟨-, -, hd⟩, k9⟩ := i1 (by rw [hd1]; exact hgcd)
    obtain ⟨d2, hd2⟩ : ∃ z, z = d % p := ⟨_, rfl⟩
    obtain ⟨d3, hd3⟩ : ∃ z, z = d2 % p := ⟨_, rfl⟩
    obtain ⟨l, hl⟩ : ∃ z, z = n5 * d2 := ⟨_, rfl⟩
    obtain ⟨s10, e10, k10⟩ := cn_mod (i := 1) (r := sp + 1) (x := sp + 1) (zx := d) (L' := [n5, d2, 0, 0, 0, 0]) rfl hw hK k9 rfl rfl (by omega)
      (Src.loc (j := 1) rfl (by omega)) (Src.arg (x := g) (by omega) hp) hp0 (by omega) hd2 rfl
    obtain ⟨s11, e11, k11⟩ := cn_mul (i := 2) (r := sp + 2) (x := sp) (y := sp + 1) (zx := n5) (zy := d2) (L' := [n5, d2, l, 0, 0, 0]) rfl hw hK k10 rfl rfl (by omega)
      (Src.loc (j := 0) rfl (by omega)) (Src.loc (j := 1) rfl (by omega)) hl rfl
    obtain ⟨s12, e12, k12⟩ := cn_mod (i := 1) (r := sp + 1) (x := sp + 1) (zx := d2) (L' := [n5, d3, l, 0, 0, 0]) rfl hw hK k11 rfl rfl (by omega)
      (Src.loc (j := 1) rfl (by omega)) (Src.arg (x := g) (by omega) hp) hp0 (by omega) hd3 rfl
    obtain ⟨s', L', x, y, e, hx, hy, k⟩ := third_calm (p2 := p1) hw hK k12 h1 (by omega) (by omega) hpr hA hX1 hY1 hX1 hp hp0
    refine ⟨s', L', x, y, d, l, ?_, by rw [← hd1]; exact hd, by rw [hl, hn5, hn4, hn3, hn2, hn1, hd2], hx, hy, k⟩
    unfold ecpDblBody
    rw [chk_ok e1, chk_ok e2, chk_ok e3, chk_ok e4, chk_ok e5, chk_ok e6, chk_ok e7, chk_ok e8, chk_ok e9, chk_ok e10, chk_ok e11, chk_ok e12]
    exact e
  · intro hgcd
    obtain ⟨s9, e9, k9⟩ := i2 (by rw [hd1]; exact hgcd)
    refine ⟨s9, _, ?_, k9⟩
    unfold ecpDblBody
    rw [chk_ok e1, chk_ok e2, chk_ok e3, chk_ok e4, chk_ok e5, chk_ok e6, chk_ok e7, chk_ok e8, chk_fail e9 (by decide)]

end

/-! ### Points -/

open WeierstrassCurve WeierstrassCurve.Affine
open Verif.Ecp (curve)

/-- The group object: modulus and coefficient `a`. -/
structure GrpAt (w p : Nat) (a b : ZMod p) (A : Env) (g : Nat) (za : Int) : Prop where
  modulus : ∀ o, A g o → o.Shows w p
  coef : Coef w (A (g + 1)) za (¬ IsSquare b ∧ (3 : ZMod p) ≠ 0)
  val : (za : ZMod p) = a

section
variable {p : Nat} {a b : ZMod p} [Fact p.Prime]

theorem onPt_zero {x y z : Int} {P : (curve p a b).Point} (h : OnPt x y z P) : z = 0 ↔ P = 0 := by
  cases P with
  | zero => exact ⟨fun _ => rfl, fun _ => h⟩
  | some X Y hn => exact ⟨fun e => absurd e h.1, fun e => by cases e⟩

theorem cast_emod (x : Int) : ((x % (p : Int) : Int) : ZMod p) = x := ZMod.intCast_mod x p

theorem gcd_one_iff (x : Int) : Int.gcd x p = 1 ↔ (x : ZMod p) ≠ 0 := by
  rw [Ne, ZMod.intCast_zmod_eq_zero_iff_dvd, ← Int.isCoprime_iff_gcd_eq_one, isCoprime_comm,
    (Nat.prime_iff_prime_int.1 (Fact.out : p.Prime)).coprime_iff_not_dvd]

theorem cast_inv {x d : Int} (h : x * d ≡ 1 [ZMOD p]) : (d : ZMod p) = (x : ZMod p)⁻¹ := by
  have := (ZMod.intCast_eq_intCast_iff _ _ _).2 h
  rw [Int.cast_mul, Int.cast_one] at this
  exact (inv_eq_of_mul_eq_one_right this).symm

theorem p_pos : (0 : Int) < p := by exact_mod_cast (Fact.out : p.Prime).pos

theorem red_third {x y : Int} {u v : Int} (hx : x = u % p) (hy : y = v % p) : RedPt p x y 1 := by
  have := p_pos (p := p)
  refine Or.inr ⟨?_, ?_, ?_, ?_, rfl⟩
  · rw [hx]; exact Int.emod_nonneg _ (by omega)
  · rw [hx]; exact Int.emod_lt_of_pos _ this
  · rw [hy]; exact Int.emod_nonneg _ (by omega)
  · rw [hy]; exact Int.emod_lt_of_pos _ this

variable {K : Ctx} {A : Env} {sp : Nat} {s : St} {pr p1 p2 g : Nat} {X1 Y1 Z1 X2 Y2 Z2 za : Int}

theorem decl_run (h : At K A sp s) (k : Nat) : ∃ s', decl sp k s = .ok ((), s') ∧ At K (Locals sp A (· = Obj.fresh)) (sp + k) s' := by
  obtain ⟨u, s', e, h'⟩ := decl_at h k
  exact ⟨s', e, h'⟩

theorem undecl {k : Nat} (h : At K (Locals sp A (· = Obj.fresh)) (sp + k) s) : At K A sp s :=
  (exit_at h fun v h1 h2 o ho => by rw [Locals.hi h1] at ho; rw [ho]; rfl).le fun v hv o ho => by rwa [Locals.lo hv] at ho

/-- What `cry_ecp_dbl` does when no allocation fails. -/
theorem ecpDbl_calm (hw : DigitWidth w) (hK : K.Calm) (h : At K A sp s) (h1 : p1 + 2 < sp) (hg : g + 1 < sp) (hpr : pr + 2 < sp)
    (hd : pr = p1 ∨ pr + 2 < p1 ∨ p1 + 2 < pr) (hA : Pt3 w A pr) (hP : At3 w A p1 X1 Y1 Z1) (hG : GrpAt w p a b A g za)
    {P : (curve p a b).Point} (hon : OnPt X1 Y1 Z1 P) :
    (P = 0 ∨ P + P ≠ 0 → ∃ s' x y z, ecpDbl w sp pr p1 g s = .ok (0, s') ∧ OnPt x y z (P + P) ∧ (RedPt p X1 Y1 Z1 → RedPt p x y z) ∧
      At K (But3 w A pr x y z) sp s') ∧
    (P ≠ 0 ∧ P + P = 0 → ∃ s', ecpDbl w sp pr p1 g s = .ok (-1, s') ∧ At K A sp s') := by
  have hw0 : 0 < w := by have := hw.pos; omega
  obtain ⟨s1, e1, k1⟩ := decl_run h 6
  have hz := onPt_zero hon
  have e2 := ecpIsZero_run (q := p1) (s := s1) (hP.z _ (by have := k1.objs (p1 + 2) (by omega); rwa [Locals.lo h1] at this))
  have hlist : ∀ v, v ∈ [sp, sp + 1, sp + 2, sp + 3, sp + 4, sp + 5] ↔ sp ≤ v ∧ v < sp + 6 := by
    intro v
    simp only [List.mem_cons, List.not_mem_nil, or_false]
    omega
  cases P with
  | zero =>
    have h0 : Z1 = 0 := hon
    refine ⟨fun _ => ?_, fun h' => absurd rfl h'.1⟩
    have e : ecpDbl w sp pr p1 g s = (if pr ≠ p1 then ecpCopy pr p1 else pure 0) s1 := by
      unfold ecpDbl
      rw [bind_ok e1, bind_ok e2, if_pos (by simpa using h0)]
    rw [e]
    have hon' : OnPt X1 Y1 Z1 ((0 : (curve p a b).Point) + 0) := by rw [add_zero]; exact hon
    by_cases hpp : pr = p1
    · subst hpp
      exact ⟨s1, X1, Y1, Z1, by rw [if_neg (by simp)]; rfl, hon', id, at_self (undecl k1) h1 hA hP⟩
    · obtain ⟨s2, e3, k2⟩ := ecpCopy_calm hK (undecl k1) hpr h1 hA hP hd
      exact ⟨s2, X1, Y1, Z1, by rw [if_pos hpp]; exact e3, hon', id, k2⟩
  | some X Y hn =>
    obtain ⟨h0, rfl, rfl⟩ := hon
    have e : ecpDbl w sp pr p1 g s = chk (initList [sp, sp + 1, sp + 2, sp + 3, sp + 4, sp + 5]) (do
        let st ← ecpDblBody w sp pr p1 g
        clearList [sp, sp + 1, sp + 2, sp + 3, sp + 4, sp + 5]
        pure st) s1 := by
      unfold ecpDbl
      rw [bind_ok e1, bind_ok e2, if_neg (by simpa using h0)]
    rw [e]
    have hnz : (¬ IsSquare b ∧ (3 : ZMod p) ≠ 0) → 3 * X1 * X1 % (p : Int) ≠ 0 := by
      rintro ⟨hb, h3⟩ hx
      have hx' : ((3 * X1 * X1 : Int) : ZMod p) = 0 := by rw [← cast_emod, hx, Int.cast_zero]
      push_cast at hx'
      have hX0 : (X1 : ZMod p) = 0 := by
        rcases mul_eq_zero.1 hx' with h | h
        · exact (mul_eq_zero.1 h).resolve_left h3
        · exact h
      apply hb
      have := hn.1
      rw [equation_iff] at this
      rw [hX0] at this
      exact ⟨(Y1 : ZMod p), by simp at this; rw [← this]; ring⟩
    have body : ∀ s1, At K (NV w sp A (List.replicate 6 0)) (sp + 6) s1 → _ := fun s1 hs =>
      ecpDblBody_calm hw hK hs (show p1 + 1 < sp by omega) hg hpr hA hP.x hP.y hG.modulus p_pos hG.coef hnz
    have hgcd : Int.gcd (2 * Y1) p = 1 ↔ 2 * (Y1 : ZMod p) ≠ 0 := by
      rw [gcd_one_iff]; push_cast; rfl
    have hsum := Verif.Ecp.point_add_self_zero hn
    constructor
    · intro hne
      have hy : 2 * (Y1 : ZMod p) ≠ 0 := by
        rcases hne with h' | h'
        · cases h'
        · exact fun e => h' (hsum.2 e)
      obtain ⟨s2, e2, k2⟩ := initList_calm hw0 hK k1 hlist (by simp)
      obtain ⟨s3, L', x, y, d, l, e3, i1, i2, i3, i4, k3⟩ := (body s2 k2).1 (hgcd.2 hy)
      obtain ⟨s4, e4, k4⟩ := clearList_calm k3 hlist
      refine ⟨s4, x, y, 1, by rw [chk_ok e2, bind_ok e3, bind_ok e4]; rfl, ?_, fun _ => red_third i3 i4, k4⟩
      have c1 := cast_inv i1
      have c2 := congrArg (Int.cast : Int → ZMod p) i2
      have c3 := congrArg (Int.cast : Int → ZMod p) i3
      have c4 := congrArg (Int.cast : Int → ZMod p) i4
      simp only [cast_emod, Int.cast_mul, Int.cast_add, Int.cast_sub, Int.cast_ofNat, hG.val] at c1 c2 c3 c4
      rw [c1] at c2
      obtain ⟨hh, e5⟩ := Verif.Ecp.point_add_tangent hn hy _ _ _ c2 c3 c4
      rw [e5]
      exact ⟨by decide, rfl, rfl⟩
    · rintro ⟨-, hne⟩
      have hy := hsum.1 hne
      obtain ⟨s2, e2, k2⟩ := initList_calm hw0 hK k1 hlist (by simp)
      obtain ⟨s3, L', e3, k3⟩ := (body s2 k2).2 (fun h => hgcd.1 h hy)
      obtain ⟨s4, e4, k4⟩ := clearList_calm k3 hlist
      exact ⟨s4, by rw [chk_ok e2, bind_ok e3, bind_ok e4]; rfl, k4⟩

theorem ecpAddBody_calm (hw : DigitWidth w) (hK : K.Calm) {n d : Int} (h : At K (NV w sp A [n, d, 0, 0, 0, 0]) (sp + 6) s)
    (h1 : p1 + 1 < sp) (h2 : p2 < sp) (hg : g < sp) (hpr : pr + 2 < sp) (hA : Pt3 w A pr)
    (hX1 : ∀ o, A p1 o → o.Shows w X1) (hY1 : ∀ o, A (p1 + 1) o → o.Shows w Y1) (hX2 : ∀ o, A p2 o → o.Shows w X2)
    (hp : ∀ o, A g o → o.Shows w p) (hd : Int.gcd d p = 1) :
    ∃ s' L' x y d' l, ecpAddBody w sp pr p1 p2 g s = .ok (0, s') ∧ d * d' ≡ 1 [ZMOD p] ∧ l = n * d' % p ∧
      x = (l * l % p - X1 - X2) % p ∧ y = ((X1 - x) * l % p - Y1) % p ∧ L'.length = 6 ∧
      At K (NV w sp (But3 w A pr x y 1) L') (sp + 6) s' := by
  obtain ⟨s1, d', e1, ⟨-, -, hd'⟩, k1⟩ := (cn_inv (S := sp + 6) (i := 1) (r := sp + 1) (x := sp + 1) (zx := d) rfl hw hK h rfl rfl (by omega)
    (Src.loc (j := 1) rfl (by omega)) (Src.arg (x := g) (by omega) hp) p_pos (by omega)).1 hd
  obtain ⟨l1, hl1⟩ : ∃ z, z = n * d' := ⟨_, rfl⟩
  obtain ⟨l, hl⟩ : ∃ z, z = l1 % (p : Int) := ⟨_, rfl⟩
  obtain ⟨s2, e2, k2⟩ := cn_mul (i := 2) (r := sp + 2) (x := sp) (y := sp + 1) (zx := n) (zy := d') (L' := [n, d', l1, 0, 0, 0]) rfl hw hK k1 rfl rfl (by omega)
    (Src.loc (j := 0) rfl (by omega)) (Src.loc (j := 1) rfl (by omega)) hl1 rfl
  obtain ⟨s3, e3, k3⟩ := cn_mod (i := 2) (r := sp + 2) (x := sp + 2) (zx := l1) (L' := [n, d', l, 0, 0, 0]) rfl hw hK k2 rfl rfl (by omega)
    (Src.loc (j := 2) rfl (by omega)) (Src.arg (x := g) (by omega) hp) p_pos (by omega) hl rfl
  obtain ⟨s', L', x, y, e, hx, hy, k⟩ := third_calm (p2 := p2) hw hK k3 h1 h2 (by omega) hpr hA hX1 hY1 hX2 hp p_pos
  obtain ⟨L', k, hL'⟩ : ∃ L', At K (NV w sp (But3 w A pr x y 1) L') (sp + 6) s' ∧ L'.length = 6 := by
    refine ⟨[L'.getD 0 0, L'.getD 1 0, L'.getD 2 0, L'.getD 3 0, L'.getD 4 0, L'.getD 5 0], k.le fun v hv o ho => ?_, rfl⟩
    unfold NV Nums at *
    by_cases hv' : v < sp
    · rw [if_pos hv'] at *; exact ho
    · rw [if_neg hv'] at *
      obtain ⟨j, rfl⟩ := Nat.exists_eq_add_of_le (show sp ≤ v by omega)
      rw [Nat.add_sub_cancel_left] at *
      have : j = 0 ∨ j = 1 ∨ j = 2 ∨ j = 3 ∨ j = 4 ∨ j = 5 := by omega
      rcases this with rfl | rfl | rfl | rfl | rfl | rfl <;> exact ho
  refine ⟨s', L', x, y, d', l, ?_, hd', by rw [hl, hl1], hx, hy, hL', k⟩
  unfold ecpAddBody
  rw [chk_ok e1, chk_ok e2, chk_ok e3]
  exact e

/-- What `cry_ecp_add` does when no allocation fails. -/
theorem ecpAdd_calm (hw : DigitWidth w) (hK : K.Calm) (h : At K A sp s) (h1 : p1 + 2 < sp) (h2 : p2 + 2 < sp) (hg : g + 1 < sp) (hpr : pr + 2 < sp)
    (hd : pr = p1 ∨ pr + 2 < p1 ∨ p1 + 2 < pr) (hd2 : pr = p2 ∨ pr + 2 < p2 ∨ p2 + 2 < pr) (hA : Pt3 w A pr) (hP : At3 w A p1 X1 Y1 Z1)
    (hQ : At3 w A p2 X2 Y2 Z2) (hG : GrpAt w p a b A g za)
    {P Q : (curve p a b).Point} (hon : OnPt X1 Y1 Z1 P) (hon2 : OnPt X2 Y2 Z2 Q) :
    (¬ (P = Q ∧ P ≠ 0 ∧ P + P = 0) → ∃ s' x y z, ecpAdd w sp pr p1 p2 g s = .ok (0, s') ∧ OnPt x y z (P + Q) ∧
      (RedPt p X1 Y1 Z1 → RedPt p X2 Y2 Z2 → RedPt p x y z) ∧ At K (But3 w A pr x y z) sp s') ∧
    (P = Q ∧ P ≠ 0 ∧ P + P = 0 → ∃ s', ecpAdd w sp pr p1 p2 g s = .ok (-1, s') ∧ At K A sp s') := by
  have hw0 : 0 < w := by have := hw.pos; omega
  obtain ⟨s1, e1, k1⟩ := decl_run h 2
  have e2 := ecpIsZero_run (q := p1) (s := s1) (hP.z _ (by have := k1.objs (p1 + 2) (by omega); rwa [Locals.lo h1] at this))
  have e3 := ecpIsZero_run (q := p2) (s := s1) (hQ.z _ (by have := k1.objs (p2 + 2) (by omega); rwa [Locals.lo h2] at this))
  have hlist : ∀ v, v ∈ [sp, sp + 1] ↔ sp ≤ v ∧ v < sp + 2 := by
    intro v
    simp only [List.mem_cons, List.not_mem_nil, or_false]
    omega
  have hlist2 : ∀ v, v ∈ [sp + 2, sp + 3, sp + 4, sp + 5] ↔ sp + 2 ≤ v ∧ v < sp + 2 + 4 := by
    intro v
    simp only [List.mem_cons, List.not_mem_nil, or_false]
    omega
  by_cases hz1 : Z1 = 0
  · have hP0 := (onPt_zero hon).1 hz1
    refine ⟨fun _ => ?_, fun h' => absurd hP0 h'.2.1⟩
    rw [hP0, zero_add]
    have e : ecpAdd w sp pr p1 p2 g s = (if pr ≠ p2 then ecpCopy pr p2 else pure 0) s1 := by
      unfold ecpAdd
      rw [bind_ok e1, bind_ok e2, if_pos (by simpa using hz1)]
    rw [e]
    by_cases hpp : pr = p2
    · subst hpp
      exact ⟨s1, X2, Y2, Z2, by rw [if_neg (by simp)]; rfl, hon2, fun _ => id, at_self (undecl k1) h2 hA hQ⟩
    · obtain ⟨s2, e3, k2⟩ := ecpCopy_calm hK (undecl k1) hpr h2 hA hQ hd2
      exact ⟨s2, X2, Y2, Z2, by rw [if_pos hpp]; exact e3, hon2, fun _ => id, k2⟩
  have hP0 : P ≠ 0 := fun h => hz1 ((onPt_zero hon).2 h)
  by_cases hz2 : Z2 = 0
  · have hQ0 := (onPt_zero hon2).1 hz2
    refine ⟨fun _ => ?_, fun h' => absurd (h'.1.trans hQ0) h'.2.1⟩
    rw [hQ0, add_zero]
    have e : ecpAdd w sp pr p1 p2 g s = (if pr ≠ p1 then ecpCopy pr p1 else pure 0) s1 := by
      unfold ecpAdd
      rw [bind_ok e1, bind_ok e2, if_neg (by simpa using hz1), bind_ok e3, if_pos (by simpa using hz2)]
    rw [e]
    by_cases hpp : pr = p1
    · subst hpp
      exact ⟨s1, X1, Y1, Z1, by rw [if_neg (by simp)]; rfl, hon, fun h _ => h, at_self (undecl k1) h1 hA hP⟩
    · obtain ⟨s2, e3, k2⟩ := ecpCopy_calm hK (undecl k1) hpr h1 hA hP hd
      exact ⟨s2, X1, Y1, Z1, by rw [if_pos hpp]; exact e3, hon, fun h _ => h, k2⟩
  have hQ0 : Q ≠ 0 := fun h => hz2 ((onPt_zero hon2).2 h)
  obtain ⟨s2, e4, k2⟩ := initList_calm (as := [sp, sp + 1]) hw0 hK k1 hlist (by simp)
  obtain ⟨n1, hn1⟩ : ∃ z, z = Y2 - Y1 := ⟨_, rfl⟩
  obtain ⟨n, hn⟩ : ∃ z, z = n1 % (p : Int) := ⟨_, rfl⟩
  obtain ⟨d1, hd1⟩ : ∃ z, z = X2 - X1 := ⟨_, rfl⟩
  obtain ⟨d, hd'⟩ : ∃ z, z = d1 % (p : Int) := ⟨_, rfl⟩
  obtain ⟨s3, e5, k3⟩ := cn_sub (i := 0) (r := sp) (L' := [n1, 0]) hw hK k2 rfl rfl (by omega)
    (Src.arg (x := p2 + 1) (by omega) hQ.y) (Src.arg (x := p1 + 1) (by omega) hP.y) hn1 rfl
  obtain ⟨s4, e6, k4⟩ := cn_mod (i := 0) (r := sp) (x := sp) (zx := n1) (L' := [n, 0]) rfl hw hK k3 rfl rfl (by omega)
    (Src.loc (j := 0) rfl (by omega)) (Src.arg (x := g) (by omega) hG.modulus) p_pos (by omega) hn rfl
  obtain ⟨s5, e7, k5⟩ := cn_sub (i := 1) (r := sp + 1) (L' := [n, d1]) hw hK k4 rfl rfl (by omega)
    (Src.arg (x := p2) (by omega) hQ.x) (Src.arg (x := p1) (by omega) hP.x) hd1 rfl
  obtain ⟨s6, e8, k6⟩ := cn_mod (i := 1) (r := sp + 1) (x := sp + 1) (zx := d1) (L' := [n, d]) rfl hw hK k5 rfl rfl (by omega)
    (Src.loc (j := 1) rfl (by omega)) (Src.arg (x := g) (by omega) hG.modulus) p_pos (by omega) hd' rfl
  obtain ⟨hdd, u1, u2⟩ := shows_used (z := d) (V.shows (Nums.val k6 (j := 1) (by omega)))
  obtain ⟨hdn, v1, v2⟩ := shows_used (z := n) (V.shows (Nums.val k6 (j := 0) (by omega)))
  rw [Nat.add_zero] at v1
  have cd : (d : ZMod p) = X2 - X1 := by rw [hd', cast_emod, hd1]; push_cast; rfl
  have cn : (n : ZMod p) = Y2 - Y1 := by rw [hn, cast_emod, hn1]; push_cast; rfl
  have zd : d = 0 ↔ (d : ZMod p) = 0 := by
    constructor
    · intro h; rw [h, Int.cast_zero]
    · intro h
      rw [ZMod.intCast_zmod_eq_zero_iff_dvd] at h
      rw [hd'] at h ⊢
      have h3 : d1 % (p : Int) % (p : Int) = 0 := Int.emod_eq_zero_of_dvd h
      rwa [Int.emod_emod_of_dvd _ (dvd_refl _)] at h3
  have zn : n = 0 ↔ (n : ZMod p) = 0 := by
    constructor
    · intro h; rw [h, Int.cast_zero]
    · intro h
      rw [ZMod.intCast_zmod_eq_zero_iff_dvd] at h
      rw [hn] at h ⊢
      have h3 : n1 % (p : Int) % (p : Int) = 0 := Int.emod_eq_zero_of_dvd h
      rwa [Int.emod_emod_of_dvd _ (dvd_refl _)] at h3
  have e : ecpAdd w sp pr p1 p2 g s = (do
      let st ← (if hdd.used = 0 then (if hdn.used = 0 then ecpDbl w (sp + 2) pr p1 g else ecpSetZero w pr (pure 0))
        else do
            decl (sp + 2) 4
            chk (initList [sp + 2, sp + 3, sp + 4, sp + 5]) do
              let st ← ecpAddBody w sp pr p1 p2 g
              clearList [sp + 2, sp + 3, sp + 4, sp + 5]
              pure st)
      clearList [sp, sp + 1]
      pure st : M Int) s6 := by
    have hin : ∀ k : Int → M Int, ((do
        let st ←
          chk (sub (2 ^ w) sp (p2 + 1) (p1 + 1)) <|
          chk (mod w (sp + 2) sp sp g) <|
          chk (sub (2 ^ w) (sp + 1) p2 p1) <|
          chk (mod w (sp + 2) (sp + 1) (sp + 1) g) do
            let hd ← hdr (sp + 1)
            if hd.used = 0 then do
              let hn ← hdr sp
              if hn.used = 0 then ecpDbl w (sp + 2) pr p1 g
              else ecpSetZero w pr (pure 0)
            else do
              decl (sp + 2) 4
              chk (initList [sp + 2, sp + 3, sp + 4, sp + 5]) do
                let st ← ecpAddBody w sp pr p1 p2 g
                clearList [sp + 2, sp + 3, sp + 4, sp + 5]
                pure st
        k st : M Int)) s2 = (do
        let st ← (if hdd.used = 0 then (if hdn.used = 0 then ecpDbl w (sp + 2) pr p1 g else ecpSetZero w pr (pure 0))
          else do
              decl (sp + 2) 4
              chk (initList [sp + 2, sp + 3, sp + 4, sp + 5]) do
                let st ← ecpAddBody w sp pr p1 p2 g
                clearList [sp + 2, sp + 3, sp + 4, sp + 5]
                pure st)
        k st : M Int) s6 := by
      intro k
      refine bind_congr_run ?_
      rw [chk_ok e5, chk_ok e6, chk_ok e7, chk_ok e8, bind_ok (hdr_ok u1)]
      by_cases hu : hdd.used = 0
      · rw [if_pos hu, if_pos hu, bind_ok (hdr_ok v1)]
      · rw [if_neg hu, if_neg hu]
    unfold ecpAdd
    rw [bind_ok e1, bind_ok e2, if_neg (by simpa using hz1), bind_ok e3, if_neg (by simpa using hz2), chk_ok e4]
    exact hin _
  rw [e]
  have hA2 : ∀ {L : List Int}, Pt3 w (NV w sp A L) pr := fun {L} =>
    ⟨by rw [NV.lo (by omega)]; exact hA.x, by rw [NV.lo (by omega)]; exact hA.y, by rw [NV.lo (by omega)]; exact hA.z⟩
  have close : ∀ {L : List Int} {x y z : Int} {s7 : St} {c : M Int}, c s6 = .ok (0, s7) → At K (But3 w (NV w sp A L) pr x y z) (sp + 2) s7 →
      ∃ s', (do let st ← c; clearList [sp, sp + 1]; pure st : M Int) s6 = .ok (0, s') ∧ At K (But3 w A pr x y z) sp s' := by
    intro L x y z s7 c f1 f2
    obtain ⟨s8, f3, f4⟩ := clearList_calm (A := But3 w A pr x y z) (L := L) (w := w) (as := [sp, sp + 1]) (f2.le fun v hv o ho => by
      by_cases hv' : v < sp
      · rw [NV.lo hv']
        unfold But3 at *
        by_cases g1 : v = pr + 2
        · subst g1; rw [Function.update_self] at *; exact ho
        rw [Function.update_of_ne g1] at *
        by_cases g2 : v = pr + 1
        · subst g2; rw [Function.update_self] at *; exact ho
        rw [Function.update_of_ne g2] at *
        by_cases g3 : v = pr
        · subst g3; rw [Function.update_self] at *; exact ho
        rw [Function.update_of_ne g3] at *
        rwa [NV.lo hv'] at ho
      · rw [But3.ne (by omega)] at ho
        unfold NV Nums at *
        rw [if_neg hv'] at *
        exact ho) hlist
    exact ⟨s8, by rw [bind_ok f1, bind_ok f3]; rfl, f4⟩
  cases P with
  | zero => exact absurd rfl hP0
  | some Xa Ya hn1' =>
  cases Q with
  | zero => exact absurd rfl hQ0
  | some Xb Yb hn2' =>
  obtain ⟨-, rfl, rfl⟩ := hon
  obtain ⟨-, rfl, rfl⟩ := hon2
  by_cases hdz : d = 0
  · have hx : (X1 : ZMod p) = X2 := by
      have := zd.1 hdz; rw [cd, sub_eq_zero] at this; exact this.symm
    by_cases hnz : n = 0
    · have hy : (Y1 : ZMod p) = Y2 := by
        have := zn.1 hnz; rw [cn, sub_eq_zero] at this; exact this.symm
      have hPQ : Point.some (X1 : ZMod p) Y1 hn1' = Point.some (X2 : ZMod p) Y2 hn2' := by simp only [hx, hy]
      have hif : (if hdd.used = 0 then (if hdn.used = 0 then ecpDbl w (sp + 2) pr p1 g else ecpSetZero w pr (pure 0))
          else do
            decl (sp + 2) 4
            chk (initList [sp + 2, sp + 3, sp + 4, sp + 5]) do
              let st ← ecpAddBody w sp pr p1 p2 g
              clearList [sp + 2, sp + 3, sp + 4, sp + 5]
              pure st) = ecpDbl w (sp + 2) pr p1 g := by rw [if_pos (u2.2 hdz), if_pos (v2.2 hnz)]
      rw [hif]
      have hd := ecpDbl_calm (a := a) (b := b) (P := Point.some (X1 : ZMod p) Y1 hn1') (s := s6) hw hK k6 (p1 := p1) (by omega) (g := g) (by omega) (pr := pr) (by omega) hd hA2
        (⟨by rw [NV.lo (by omega)]; exact hP.x, by rw [NV.lo (by omega)]; exact hP.y, by rw [NV.lo (by omega)]; exact hP.z⟩ : At3 w _ p1 X1 Y1 Z1)
        (⟨by rw [NV.lo (by omega)]; exact hG.modulus, by rw [NV.lo (by omega)]; exact hG.coef, hG.val⟩ : GrpAt w p a b _ g za) ⟨hz1, rfl, rfl⟩
      rw [← hPQ]
      constructor
      · intro hne
        obtain ⟨s7, x, y, z, f1, f2, f3, f4⟩ := hd.1 (Or.inr fun h => hne ⟨rfl, hP0, h⟩)
        obtain ⟨s8, f5, f6⟩ := close f1 f4
        exact ⟨s8, x, y, z, f5, f2, fun h _ => f3 h, f6⟩
      · rintro ⟨-, -, h0⟩
        obtain ⟨s7, f1, f2⟩ := hd.2 ⟨hP0, h0⟩
        obtain ⟨s8, f3, f4⟩ := clearList_calm f2 hlist
        exact ⟨s8, by rw [bind_ok f1, bind_ok f3]; rfl, f4⟩
    · have hy : (Y1 : ZMod p) ≠ Y2 := fun h => hnz (zn.2 (by rw [cn, h, sub_self]))
      refine ⟨fun _ => ?_, fun h' => ?_⟩
      · rw [if_pos (u2.2 hdz), if_neg (fun h => hnz (v2.1 h))]
        obtain ⟨s7, f1, f2⟩ := ecpSetZero_calm hw hK k6 (q := pr) (by omega) hA2
        obtain ⟨s8, f5, f6⟩ := close (f1 (pure 0)) f2
        refine ⟨s8, 1, 1, 0, f5, ?_, fun _ _ => Or.inl ⟨rfl, rfl, rfl⟩, f6⟩
        rw [Verif.Ecp.point_add_opp hn1' hn2' hx hy]
        exact rfl
      · have := h'.1
        simp only [Point.some.injEq] at this
        exact absurd this.2 hy
  · have hx : (X2 : ZMod p) - X1 ≠ 0 := by rw [← cd]; exact fun h => hdz (zd.2 h)
    refine ⟨fun _ => ?_, fun h' => ?_⟩
    · rw [if_neg (fun h => hdz (u2.1 h))]
      obtain ⟨s7, f1, m7⟩ := decl_run k6 4
      obtain ⟨s8, f2, m8⟩ := initList_calm (as := [sp + 2, sp + 3, sp + 4, sp + 5]) hw0 hK m7 hlist2 (by simp)
      have m8' : At K (NV w sp A [n, d, 0, 0, 0, 0]) (sp + 6) s8 := m8.le (NV.append (L1 := [n, d]) (L2 := [0, 0, 0, 0]))
      obtain ⟨s9, L', x, y, d', l, f3, i1, i2, i3, i4, hL', m9⟩ := ecpAddBody_calm (p := p) hw hK m8' (p1 := p1) (by omega) (p2 := p2) (by omega) (g := g) (by omega) (pr := pr) (by omega) hA
        hP.x hP.y hQ.x hG.modulus ((gcd_one_iff d).2 (by rw [cd]; exact hx))
      have m9' := m9.le (E := NV w sp (But3 w A pr x y 1) L') (B := NV w (sp + 2) (NV w sp (But3 w A pr x y 1) [L'.getD 0 0, L'.getD 1 0]) (L'.drop 2)) ?_
      · obtain ⟨s10, f4, m10⟩ := clearList_calm (N := 4) (as := [sp + 2, sp + 3, sp + 4, sp + 5]) m9' hlist2
        obtain ⟨s11, f5, m11⟩ := clearList_calm m10 hlist
        refine ⟨s11, x, y, 1, ?_, ?_, fun _ _ => red_third i3 i4, m11⟩
        · have : (do
              decl (sp + 2) 4
              chk (initList [sp + 2, sp + 3, sp + 4, sp + 5]) do
                let st ← ecpAddBody w sp pr p1 p2 g
                clearList [sp + 2, sp + 3, sp + 4, sp + 5]
                pure st : M Int) s6 = .ok (0, s10) := by
            rw [bind_ok f1, chk_ok f2, bind_ok f3, bind_ok f4]; rfl
          rw [bind_ok this, bind_ok f5]; rfl
        · have c1 := cast_inv i1
          have c2 := congrArg (Int.cast : Int → ZMod p) i2
          have c3 := congrArg (Int.cast : Int → ZMod p) i3
          have c4 := congrArg (Int.cast : Int → ZMod p) i4
          simp only [cast_emod, Int.cast_mul, Int.cast_add, Int.cast_sub] at c1 c2 c3 c4
          rw [c1, cn, cd] at c2
          obtain ⟨hh, e5⟩ := Verif.Ecp.point_add_chord hn1' hn2' hx _ _ _ c2 c3 c4
          rw [e5]
          exact ⟨by decide, rfl, rfl⟩
      · match L', hL' with
        | [a0, a1, a2, a3, a4, a5], _ => exact NV.split (L1 := [a0, a1]) (L2 := [a2, a3, a4, a5])
    · have := h'.1
      simp only [Point.some.injEq] at this
      exact absurd (by rw [this.1, sub_self]) hx

end

end Verif.Mem
