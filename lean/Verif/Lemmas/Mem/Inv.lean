import Verif.Lemmas.Mem.Gcd
import Verif.Lemmas.Mpi.Inv
/-! `cry_mpi_inv` when no allocation fails. -/
namespace Verif.Mem
open Verif.Mpi (Mpi Norm WF val Rep DigitWidth InvInv)

variable {w : Nat}

theorem step_of_at {sp r : Nat} {s s' : St} {P : Obj → Prop} (hr : r < sp) (h : At (ctxOf sp s) (But s r P) sp s') :
    Step sp s s' r ∧ P (s'.obj r) := by
  obtain ⟨st, s2, e, t, h⟩ := leaf_of_res (sp := sp) (s := s) (c := fun _ => .ok (0, s')) (good := P) (bad := P) hr ⟨0, s', rfl, Or.inl ⟨rfl, h⟩⟩
  cases e
  rcases h with ⟨-, h⟩ | ⟨-, -, h⟩ <;> exact ⟨t, h⟩

/-- What is known of the state from which a function started carries over. -/
theorem At.lift {K : Ctx} {E G : Env} {S : Nat} {s s' : St} (h : At K E S s) (h' : At (ctxOf S s) G S s') : At K G S s' :=
  ⟨h'.objs, by
    have h1 := h.bal
    have h2 := h'.bal
    have : (ctxOf S s).B = s.live - ∑ v ∈ Finset.range S, (s.obj v).owns := rfl
    rw [this] at h2
    omega, h'.orc.trans h.orc, h.tick.trans h'.tick⟩

/-- No allocation fails. -/
def Ctx.Calm (K : Ctx) : Prop := ∀ k, K.F k = false

theorem Res.calm {K : Ctx} {S : Nat} {G B : Env} {st : Int} {s : St} (hK : K.Calm) (h : Res K S G B st s) : st = 0 ∧ At K G S s := by
  rcases h with h | ⟨-, ⟨k, -, -, f⟩, -⟩
  · exact h
  · rw [hK k] at f; cases f

theorem calm_leaf {K : Ctx} {E : Env} {S r : Nat} {s : St} {c : M Int} {good bad : Obj → Prop} (hK : K.Calm) (h : At K E S s) (hr : r < S)
    (hl : Leaf S s r c good bad) : ∃ s', c s = .ok (0, s') ∧ At K (Function.update E r good) S s' := by
  obtain ⟨st, s', e, h'⟩ := leaf_at h hr hl
  obtain ⟨rfl, h2⟩ := h'.calm hK
  exact ⟨s', e, h2⟩

theorem ign_run {c k : M Int} {s s' : St} {st : Int} (h : c s = .ok (st, s')) : ign c k s = k s' := by
  unfold ign; rw [bind_ok h]

theorem Nums.swap {Q : Int → Obj → Prop} {sp S i j : Nat} {A : Env} {L : List Int} (hij : i ≠ j) (hi : i < L.length) (hj : j < L.length) :
    Le S (Function.update (Function.update (Nums Q sp A L) (sp + i) (Nums Q sp A L (sp + j))) (sp + j) (Nums Q sp A L (sp + i)))
      (Nums Q sp A ((L.set i (L.getD j 0)).set j (L.getD i 0))) := by
  rw [Nums.hi, Nums.hi]
  refine Le.trans (fun v hv o ho => ?_) (Nums.set (by simpa using hj))
  by_cases h : v = sp + j
  · subst h; rw [Function.update_self] at *; exact ho
  · rw [Function.update_of_ne h] at *
    exact Nums.set hi v hv o ho

section
variable {K : Ctx} {A : Env} {sp : Nat}

/-- What the locals `r0, r1, s0, s1, q` hold. -/
abbrev Five (w sp : Nat) (A : Env) (L : List Int) : Env := Nums (fun z => V w z 0) sp A L

/-- The quotient `cry_mpi_div` computes. -/
def quo (R0 R1 : Int) : Int := if Adj R0 R1 then -(|R0| / |R1|) - 1 else |R0| / |R1|

theorem quo_nonneg {R0 R1 : Int} (h0 : 0 ≤ R0) (h1 : 0 < R1) : quo R0 R1 = R0 / R1 ∧ ¬ Adj R0 R1 := by
  have hA : ¬ Adj R0 R1 := fun h => h.1 (by omega)
  unfold quo
  rw [if_neg hA, abs_of_nonneg h0, abs_of_pos h1]
  exact ⟨rfl, hA⟩

/-- One turn of the loop. -/
theorem inv_turn (hw : DigitWidth w) (hK : K.Calm) {s : St} {R0 R1 S0 S1 : Int} {n : Nat} {k : M Int} {fuel : Nat}
    (h : At K (Five w sp A [R0, R1, S0, S1, 0]) (sp + 5) s) (hn : n ≤ 2) (hq : V w 0 n (s.obj (sp + 4))) (h1 : 0 < R1) (hadj : Adj R0 R1 → n = 2) :
    ∃ s', invLoop w (sp + 5) sp (sp + 1) (sp + 2) (sp + 3) (sp + 4) k (fuel + 1) s =
        invLoop w (sp + 5) sp (sp + 1) (sp + 2) (sp + 3) (sp + 4) k fuel s' ∧
      At K (Five w sp A [R1, R0 % R1, S1, S0 - quo R0 R1 * S1, 0]) (sp + 5) s' := by
  have hw0 : 0 < w := by have := hw.pos; omega
  have g : ∀ {L : List Int} {s : St}, At K (Five w sp A L) (sp + 5) s → ∀ i, i < 5 → V w (L.getD i 0) 0 (s.obj (sp + i)) := fun h i hi => by
    have := h.objs (sp + i) (by omega); unfold Five at this; rwa [Nums.hi] at this
  have v0 : V w R0 0 (s.obj sp) := g h 0 (by omega)
  have v1 : V w R1 0 (s.obj (sp + 1)) := g h 1 (by omega)
  obtain ⟨mr, r1, r2, r3⟩ := id v1
  have hz : mr.digs.length ≠ 0 := fun e => by
    have : mr.digs = [] := List.eq_nil_of_length_eq_zero e
    have := (Mpi.toInt_eq_zero_iff (Nat.two_pow_pos w) r1.toNorm).2 this
    omega
  rw [invLoop, bind_ok (hdr_ok r3.1.1), if_neg hz]
  obtain ⟨st, s1, e1, h1'⟩ := div_res (sp := sp + 5) (rq := some (sp + 4)) (vr := sp) hw v0.shows v1.shows (by omega) (by omega) (by omega) hn
    (fun v e => by cases e; exact ⟨by omega, 0, hq⟩) (by omega) v0.any (by simp) (fun hA => ⟨hadj hA, by omega, by simp⟩)
  obtain ⟨rfl, h2'⟩ := h1'.calm (show (ctxOf (sp + 5) s).Calm from fun k => by
    show s.fails k = false
    rw [h.orc]; exact hK k)
  rw [mod_adj R0 h1] at h2'
  have a1 : At K (Five w sp A [R0 % R1, R1, S0, S1, quo R0 R1]) (sp + 5) s1 := (h.lift h2').le fun v hv o ho => by
    simp only [updO] at ho
    by_cases hv0 : v = sp
    · subst hv0
      rw [Function.update_self] at ho
      have := Nums.hi (Q := fun z => V w z 0) (sp := v) (i := 0) (A := A) (L := [R0 % R1, R1, S0, S1, quo R0 R1])
      rw [Nat.add_zero] at this
      unfold Five
      rw [this]; exact ho
    · rw [Function.update_of_ne hv0] at ho
      by_cases hv4 : v = sp + 4
      · subst hv4
        rw [Function.update_self] at ho
        unfold Five; rw [Nums.hi]; exact ho
      · rw [Function.update_of_ne hv4] at ho
        have hE := h.objs v hv
        rw [← show o = s.obj v from ho] at hE
        by_cases hlt : v < sp
        · unfold Five at hE ⊢; rw [Nums.lo hlt] at hE ⊢; exact hE
        · obtain ⟨i, rfl⟩ := Nat.exists_eq_add_of_le (not_lt.1 hlt)
          unfold Five at hE ⊢
          rw [Nums.hi] at hE ⊢
          rcases i with _ | _ | _ | _ | _ | i
          · exact absurd rfl hv0
          · exact hE
          · exact hE
          · exact hE
          · exact absurd rfl hv4
          · omega
  rw [ign_run e1]
  obtain ⟨u2, s2, e2, a2⟩ := swap_at a1 (a := sp) (b := sp + 1) (by omega) (by omega)
  have a2 : At K (Five w sp A [R1, R0 % R1, S0, S1, quo R0 R1]) (sp + 5) s2 :=
    a2.le (Nums.swap (i := 0) (j := 1) (by omega) (by simp) (by simp))
  rw [bind_ok e2]
  obtain ⟨s3, e3, a3⟩ := calm_leaf hK a2 (r := sp + 4) (by omega)
    (mul_leaf hw.pos (g a2 4 (by omega)).r (g a2 4 (by omega)).rs (g a2 3 (by omega)).rs (by omega) (by omega) (by omega) (Or.inl rfl))
  have a3 : At K (Five w sp A [R1, R0 % R1, S0, S1, quo R0 R1 * S1]) (sp + 5) s3 := a3.le (Nums.set (i := 4) (by simp))
  obtain ⟨s4, e4, a4⟩ := calm_leaf hK a3 (r := sp + 2) (by omega) (sub_leaf hw0 (g a3 2 (by omega)) (g a3 2 (by omega)).shows (g a3 4 (by omega)).shows)
  have a4 : At K (Five w sp A [R1, R0 % R1, S0 - quo R0 R1 * S1, S1, quo R0 R1 * S1]) (sp + 5) s4 := a4.le (Nums.set (i := 2) (by simp))
  rw [ign_run e3, ign_run e4]
  obtain ⟨u5, s5, e5, a5⟩ := swap_at a4 (a := sp + 2) (b := sp + 3) (by omega) (by omega)
  have a5 : At K (Five w sp A [R1, R0 % R1, S1, S0 - quo R0 R1 * S1, quo R0 R1 * S1]) (sp + 5) s5 :=
    a5.le (Nums.swap (i := 2) (j := 3) (by omega) (by simp) (by simp))
  rw [bind_ok e5]
  obtain ⟨s6, e6, t6, h6⟩ := zero_run (S := sp + 5) (g a5 4 (by omega))
  rw [bind_ok e6]
  exact ⟨s6, rfl, (step_at a5 (by omega) t6 h6).le (Nums.set (i := 4) (by simp))⟩

theorem invLoop_run (hw : DigitWidth w) (hK : K.Calm) {X N : Int} {k : M Int} : ∀ (fuel : Nat) (s : St) (R0 R1 S0 S1 : Int),
    At K (Five w sp A [R0, R1, S0, S1, 0]) (sp + 5) s → InvInv X N R0 R1 S0 S1 → R1 < fuel →
    ∃ s' S S', invLoop w (sp + 5) sp (sp + 1) (sp + 2) (sp + 3) (sp + 4) k fuel s = k s' ∧
      At K (Five w sp A [(Int.gcd R0 R1 : Int), 0, S, S', 0]) (sp + 5) s' ∧
      X * S ≡ (Int.gcd R0 R1 : Int) [ZMOD N] ∧ (Int.gcd R0 R1 = 1 → |S| ≤ N) ∧ (R1 = 0 → S = S0)
  | 0, _, _, _, _, _, _, hI, hf => by have := hI.nonneg; simp at hf; omega
  | fuel + 1, s, R0, R1, S0, S1, h, hI, hf => by
    by_cases hz : R1 = 0
    · subst hz
      have v1 : V w 0 0 (s.obj (sp + 1)) := by have := h.objs (sp + 1) (by omega); unfold Five at this; rwa [Nums.hi] at this
      obtain ⟨mr, r1, r2, r3⟩ := id v1
      have hz : mr.digs.length = 0 := by
        rw [(Mpi.toInt_eq_zero_iff (Nat.two_pow_pos w) r1.toNorm).1 r2]; rfl
      have h0 := hI.lt
      have hg : (Int.gcd R0 0 : Int) = R0 := by rw [Int.gcd_zero_right]; omega
      refine ⟨s, S0, S1, ?_, by rw [hg]; exact h, by rw [hg]; exact hI.c0, fun h1 => ?_, fun _ => rfl⟩
      · rw [invLoop, bind_ok (hdr_ok r3.1.1), if_pos hz]
      · have : R0 = 1 := by omega
        subst this
        rcases hI.alt with ⟨a1, a2, a3, a4⟩ | ⟨a1, a2, a3, a4⟩
        · rw [abs_of_nonpos a1]; linarith
        · rw [abs_of_nonneg a1]; linarith
    · have hpos : 0 < R1 := by have := hI.nonneg; omega
      have hq : V w 0 0 (s.obj (sp + 4)) := by have := h.objs (sp + 4) (by omega); unfold Five at this; rwa [Nums.hi] at this
      obtain ⟨q1, q2⟩ := quo_nonneg (R0 := R0) (by have := hI.lt; omega) hpos
      obtain ⟨s1, e1, a1⟩ := inv_turn hw hK (k := k) (fuel := fuel) h (by omega) hq hpos (fun hA => absurd hA q2)
      rw [q1] at a1
      obtain ⟨s2, S, S', e2, a2, b1, b2, -⟩ := invLoop_run hw hK fuel s1 _ _ _ _ a1 (hI.step hpos) (by
        have := Int.emod_lt_of_pos R0 hpos; push_cast at hf; omega)
      have hg : Int.gcd R1 (R0 % R1) = Int.gcd R0 R1 := by rw [Int.gcd_comm, Int.gcd_emod]
      rw [hg] at a2 b1 b2
      exact ⟨s2, S, S', e1.trans e2, a2, b1, b2, fun h => absurd h hz⟩
end

theorem isOne_run {s : St} {a : Nat} {z : Int} (hw : 0 < w) (h : V w z 0 (s.obj a)) (hz : 0 ≤ z) : isOne a s = .ok (decide (z = 1), s) := by
  obtain ⟨m, m1, m2, m3⟩ := h
  have hn : m.neg = false := by
    cases e : m.neg with
    | false => rfl
    | true =>
      have h1 : (0 : Int) ≤ val (2 ^ w) m.digs := by positivity
      have h2 : Mpi.toInt (2 ^ w) m = -(val (2 ^ w) m.digs : Int) := by simp [Mpi.Mpi.toInt, e]
      have h3 : m.digs = [] := (Mpi.toInt_eq_zero_iff (Nat.two_pow_pos w) m1.toNorm).1 (by omega)
      rw [m1.zero_nonneg h3] at e; cases e
  have hone := Mpi.digs_one_iff hw (⟨m1.toNorm, m2⟩ : Rep w m z) hn
  unfold isOne
  rw [bind_ok (hdr_ok m3.1.1)]
  dsimp only
  by_cases hl : m.digs.length = 1
  · rw [if_pos ⟨hl, hn⟩]
    obtain ⟨d, hd⟩ := List.length_eq_one_iff.1 hl
    rw [bind_ok (rd_run m3.1.reads (k := 0) (by omega))]
    show Out.ok (_, s) = _
    congr 2
    rw [Bool.eq_iff_iff, beq_iff_eq, decide_eq_true_iff, ← hone]
    simp [hd, hn, Mpi.dig]
  · rw [if_neg (fun h => hl h.1)]
    show Out.ok (_, s) = _
    congr 2
    rw [Bool.eq_iff_iff, decide_eq_true_iff, ← hone]
    simp only [Bool.false_eq_true, false_iff]
    rintro ⟨h, -⟩
    rw [h] at hl; exact hl rfl

theorem inv_close {sp r : Nat} {s s1 : St} {E : Env} {P : Obj → Prop} (hrs : r < sp) (h : At (ctxOf sp s) E (sp + 5) s1)
    (hlo : ∀ v, v < sp → ∀ o, E v o → But s r P v o) (hhi : ∀ i, i < 5 → ∀ o, E (sp + i) o → Any w o) :
    ∃ s', clearList [sp, sp + 1, sp + 2, sp + 3, sp + 4] s1 = .ok ((), s') ∧ Step sp s s' r ∧ P (s'.obj r) := by
  have hlist : ∀ v, v ∈ [sp, sp + 1, sp + 2, sp + 3, sp + 4] ↔ sp ≤ v ∧ v < sp + 5 := by
    intro v
    simp only [List.mem_cons, List.not_mem_nil, or_false]
    omega
  obtain ⟨s', e, h', -⟩ := clearList_at [sp, sp + 1, sp + 2, sp + 3, sp + 4] E s1 h (fun a ha => ((hlist a).1 ha).2) (fun a ha o ho => by
    obtain ⟨h1, h2⟩ := (hlist a).1 ha
    obtain ⟨i, rfl⟩ := Nat.exists_eq_add_of_le h1
    exact (hhi i (by omega) o ho).clr)
  refine ⟨s', e, step_of_at hrs ((exit_at h' fun v h1 h2 o ho => ?_).le fun v hv o ho => ?_)⟩
  · unfold Sets at ho
    rw [if_pos ((hlist v).2 ⟨h1, h2⟩)] at ho
    rw [ho]; rfl
  · unfold Sets at ho
    rw [if_neg (by rw [hlist]; omega)] at ho
    exact hlo v hv o ho

/-- What `inv` does after the loop. -/
def invEnd (w sp r m : Nat) : M Int := do
  if ← isOne sp then do
    swap r (sp + 2)
    if (← hdr r).neg then ign (mod w (sp + 5) r r m) (pure 0)
    else pure 0
  else do
    zero (sp + 2)
    pure (-1)

/-- `cry_mpi_inv` when no allocation fails. -/
theorem inv_run (hw : DigitWidth w) {sp r a m : Nat} {s : St} {X N : Int} (hf : ∀ k, s.fails k = false) (hr : Any w (s.obj r))
    (ha : (s.obj a).Shows w X) (hm : (s.obj m).Shows w N) (hN : 0 < N) (hrs : r < sp) (has : a < sp) (hms : m < sp) (hrm : r ≠ m) :
    ∃ st s', inv w sp r a m s = .ok (st, s') ∧
      (Int.gcd X N = 1 → st = 0 ∧ Step sp s s' r ∧ ∃ z, V w z 0 (s'.obj r) ∧ 0 ≤ z ∧ z < N ∧ X * z ≡ 1 [ZMOD N]) ∧
      (Int.gcd X N ≠ 1 → st = -1 ∧ Step sp s s' r ∧ s'.obj r = s.obj r) := by
  have hw0 : 0 < w := by have := hw.pos; omega
  have hK : (ctxOf sp s).Calm := hf
  unfold inv invTurns
  obtain ⟨u1, s1, e1, h1⟩ := decl_at (at_now sp s) 5
  rw [bind_ok e1]
  have hlist : ∀ v, v ∈ [sp, sp + 1, sp + 2, sp + 3, sp + 4] ↔ sp ≤ v ∧ v < sp + 5 := by
    intro v
    simp only [List.mem_cons, List.not_mem_nil, or_false]
    omega
  obtain ⟨st2, s2, e2, h2⟩ := initListLoop_at (w := w) hw0 [sp, sp + 1, sp + 2, sp + 3, sp + 4] [] s1 (E := Locals sp (Now s) (· = Obj.fresh))
    (h1.le fun v _ o ho => by unfold Sets; rw [if_neg (by simp)]; exact ho)
    (by intro a ha; exact ((hlist a).1 (by simpa using ha)).2) (by simp) (by
      intro a ha o ho
      rw [Locals.hi ((hlist a).1 ha).1] at ho
      rw [ho]; rfl)
  obtain ⟨rfl, h2'⟩ := h2.calm hK
  rw [List.nil_append] at h2'
  have a2 : At (ctxOf sp s) (Nums (fun z => V w z 8) sp (Now s) [0, 0, 0, 0, 0]) (sp + 5) s2 := h2'.le fun v hv o ho => by
    unfold Sets at ho
    by_cases hlt : v < sp
    · rw [if_neg (by rw [hlist]; omega), Locals.lo hlt] at ho
      rw [Nums.lo hlt]; exact ho
    · rw [if_pos (by rw [hlist]; omega)] at ho
      obtain ⟨i, rfl⟩ := Nat.exists_eq_add_of_le (not_lt.1 hlt)
      rw [Nums.hi]
      have : ([0, 0, 0, 0, 0] : List Int).getD i 0 = 0 := by
        rcases i with _ | _ | _ | _ | _ | i <;> rfl
      rw [this]; exact ho
  have g : ∀ {L : List Int} {s' : St}, At (ctxOf sp s) (Nums (fun z => V w z 8) sp (Now s) L) (sp + 5) s' →
      ∀ i, i < 5 → V w (L.getD i 0) 8 (s'.obj (sp + i)) := fun h i hi => by
    have := h.objs (sp + i) (by omega); rwa [Nums.hi] at this
  have gl : ∀ {L : List Int} {s' : St}, At (ctxOf sp s) (Nums (fun z => V w z 8) sp (Now s) L) (sp + 5) s' →
      ∀ i, i < sp → s'.obj i = s.obj i := fun h i hi => by
    have := h.objs i (by omega); rwa [Nums.lo hi] at this
  rw [show chk (initList [sp, sp + 1, sp + 2, sp + 3, sp + 4]) _ s1 = _ from by unfold chk initList; rw [bind_ok e2]]
  rw [if_neg (by decide)]
  obtain ⟨s3, e3, a3⟩ := calm_leaf hK a2 (r := sp) (by omega) (copy_leaf (g a2 0 (by omega)) (by rw [gl a2 a has]; exact ha))
  have a3 : At (ctxOf sp s) (Nums (fun z => V w z 8) sp (Now s) [X, 0, 0, 0, 0]) (sp + 5) s3 := a3.le (Nums.set (i := 0) (by simp))
  obtain ⟨s4, e4, a4⟩ := calm_leaf hK a3 (r := sp + 1) (by omega) (copy_leaf (g a3 1 (by omega)) (by rw [gl a3 m hms]; exact hm))
  have a4 : At (ctxOf sp s) (Nums (fun z => V w z 8) sp (Now s) [X, N, 0, 0, 0]) (sp + 5) s4 := a4.le (Nums.set (i := 1) (by simp))
  obtain ⟨s5, e5, t5, v5, -⟩ := setInt_run hw (S := sp + 5) (v := 1) (g a4 2 (by omega)) (by norm_num)
  have a5 : At (ctxOf sp s) (Nums (fun z => V w z 8) sp (Now s) [X, N, 1, 0, 0]) (sp + 5) s5 :=
    (step_at a4 (by omega) t5 v5).le (Nums.set (i := 2) (by simp))
  obtain ⟨s6, e6, t6, v6, -⟩ := setInt_run hw (S := sp + 5) (v := 0) (g a5 3 (by omega)) (by norm_num)
  have a6 : At (ctxOf sp s) (Nums (fun z => V w z 8) sp (Now s) [X, N, 1, 0, 0]) (sp + 5) s6 :=
    (step_at a5 (by omega) t6 v6).le (Nums.set (i := 3) (by simp))
  have vq : V w 0 2 (s6.obj (sp + 4)) := V.weak (g a6 4 (by omega)) (by omega)
  have a7 : At (ctxOf sp s) (Five w sp (Now s) [X, N, 1, 0, 0]) (sp + 5) s6 := a6.le fun v hv o ho => by
    unfold Five
    by_cases hlt : v < sp
    · rw [Nums.lo hlt] at ho ⊢; exact ho
    · obtain ⟨i, rfl⟩ := Nat.exists_eq_add_of_le (not_lt.1 hlt)
      rw [Nums.hi] at ho ⊢
      exact V.weak ho (by omega)
  obtain ⟨mn, n1, n2, n3⟩ := (g a6 1 (by omega) : V w N 8 (s6.obj (sp + 1)))
  have hU : N < 2 ^ (w * mn.digs.length) := by
    have h1 := Mpi.val_lt n1.toNorm.digits
    have h2 : N ≤ val (2 ^ w) mn.digs := by
      have h3 : Mpi.toInt (2 ^ w) mn = N := n2
      rw [← h3, Mpi.Mpi.toInt]
      have : (0 : Int) ≤ val (2 ^ w) mn.digs := by positivity
      split <;> omega
    rw [pow_mul]
    exact lt_of_le_of_lt h2 (by exact_mod_cast h1)
  have key : ∀ k : M Int, ∃ s' S S', (ign (copy sp a) <| ign (copy (sp + 1) m) <| ign (setInt w (sp + 2) 1) <| ign (setInt w (sp + 3) 0) do
        let h ← hdr (sp + 1)
        invLoop w (sp + 5) sp (sp + 1) (sp + 2) (sp + 3) (sp + 4) k (2 ^ (w * h.used) + 2)) s2 = k s' ∧
      At (ctxOf sp s) (Five w sp (Now s) [(Int.gcd X N : Int), 0, S, S', 0]) (sp + 5) s' ∧
      X * S ≡ (Int.gcd X N : Int) [ZMOD N] ∧ (Int.gcd X N = 1 → |S| ≤ N) ∧ (N = 1 → S = 0) := by
    intro k
    rw [ign_run e3, ign_run e4, ign_run e5, ign_run e6, bind_ok (hdr_ok n3.1.1)]
    obtain ⟨s7, e7, a8⟩ := inv_turn hw hK (k := k) (fuel := 2 ^ (w * mn.digs.length) + 1) a7 (le_refl _) vq hN (fun _ => rfl)
    rw [mul_zero, sub_zero] at a8
    have hI : InvInv X N N (X % N) 0 1 := by
      refine ⟨Int.emod_lt_of_pos _ hN, Int.emod_nonneg _ (by omega), ?_, ?_, Or.inl ?_⟩
      · rw [mul_zero]; exact ((Int.modEq_zero_iff_dvd).2 (dvd_refl N)).symm
      · rw [mul_one]; exact (Int.mod_modEq _ _).symm
      · refine ⟨le_refl _, by omega, by omega, by ring⟩
    obtain ⟨s8, S, S', e8, a9, b1, b2, b3⟩ := invLoop_run hw hK (k := k) (2 ^ (w * mn.digs.length) + 1) s7 _ _ _ _ a8 hI (by
      have := Int.emod_lt_of_pos X hN; push_cast; omega)
    have hg : Int.gcd N (X % N) = Int.gcd X N := by rw [Int.gcd_comm, Int.gcd_emod]
    rw [hg] at a9 b1 b2
    exact ⟨s8, S, S', e7.trans e8, a9, b1, b2, fun h => b3 (by rw [h, Int.emod_one])⟩
  obtain ⟨s8, S, S', e8, a8, b1, b2, b3⟩ := key (invEnd w sp r m)
  unfold invEnd at e8
  have v0 : V w (Int.gcd X N : Int) 0 (s8.obj sp) := by have := a8.objs (sp + 0) (by omega); unfold Five at this; rwa [Nums.hi] at this
  have v2 : V w S 0 (s8.obj (sp + 2)) := by have := a8.objs (sp + 2) (by omega); unfold Five at this; rwa [Nums.hi] at this
  have E1 := isOne_run hw0 v0 (by positivity)
  have any5 : ∀ i, i < 5 → ∀ o, Five w sp (Now s) [(Int.gcd X N : Int), 0, S, S', 0] (sp + i) o → Any w o := fun i hi o ho => by
    unfold Five at ho; rw [Nums.hi] at ho; exact ho.any
  by_cases hg : Int.gcd X N = 1
  · rw [hg] at b1
    have b2 := b2 hg
    rw [decide_eq_true (by rw [hg]; rfl)] at E1
    rw [bind_ok E1, if_pos rfl] at e8
    obtain ⟨u9, s9, e9, a9⟩ := swap_at a8 (a := r) (b := sp + 2) (by omega) (by omega)
    rw [bind_ok e9] at e8
    have v9 : V w S 0 (s9.obj r) := by
      have := a9.objs r (by omega)
      rw [Function.update_of_ne (by omega), Function.update_self] at this
      unfold Five at this; rwa [Nums.hi] at this
    have m9 : s9.obj m = s.obj m := by
      have := a9.objs m (by omega)
      rw [Function.update_of_ne (by omega), Function.update_of_ne (Ne.symm hrm)] at this
      unfold Five at this; rwa [Nums.lo hms] at this
    have hany : ∀ i, i < 5 → ∀ o, (Function.update (Function.update (Five w sp (Now s) [(Int.gcd X N : Int), 0, S, S', 0]) r
        (Five w sp (Now s) [(Int.gcd X N : Int), 0, S, S', 0] (sp + 2))) (sp + 2) (Five w sp (Now s) [(Int.gcd X N : Int), 0, S, S', 0] r)) (sp + i) o → Any w o := by
      intro i hi o ho
      by_cases h2 : i = 2
      · subst h2
        rw [Function.update_self] at ho
        unfold Five at ho; rw [Nums.lo hrs] at ho
        rw [show o = s.obj r from ho]; exact hr
      · rw [Function.update_of_ne (by omega), Function.update_of_ne (by omega)] at ho
        exact any5 i hi o ho
    have hlow : ∀ {P : Obj → Prop} v, v < sp → v ≠ r → ∀ o, (Function.update (Function.update (Five w sp (Now s) [(Int.gcd X N : Int), 0, S, S', 0]) r
        (Five w sp (Now s) [(Int.gcd X N : Int), 0, S, S', 0] (sp + 2))) (sp + 2) (Five w sp (Now s) [(Int.gcd X N : Int), 0, S, S', 0] r)) v o → But s r P v o := by
      intro P v hv hvr o ho
      rw [Function.update_of_ne (by omega), Function.update_of_ne hvr] at ho
      unfold Five at ho; rw [Nums.lo hv] at ho
      unfold But; rw [Function.update_of_ne hvr]; exact ho
    obtain ⟨ms, q1, q2, q3⟩ := id v9
    rw [bind_ok (hdr_ok q3.1.1)] at e8
    dsimp only at e8
    cases hsn : ms.neg with
    | true =>
      rw [hsn, if_pos rfl] at e8
      obtain ⟨s10, e10, a10⟩ := calm_leaf hK a9 (r := r) (by omega)
        (mod_leaf hw v9.shows (by rw [m9]; exact hm) (by omega) (by omega) hN (by omega) v9.any (Or.inr (Ne.symm hrm)))
      rw [ign_run e10] at e8
      obtain ⟨s11, e11, t11, h11⟩ := inv_close (w := w) (P := V w (S % N) 0) hrs a10 (fun v hv o ho => by
        by_cases hvr : v = r
        · subst hvr; rw [Function.update_self] at ho; unfold But; rw [Function.update_self]; exact ho
        · rw [Function.update_of_ne hvr] at ho; exact hlow v hv hvr o ho) (fun i hi o ho => by
        rw [Function.update_of_ne (by omega)] at ho; exact hany i hi o ho)
      refine ⟨0, s11, ?_, fun _ => ⟨rfl, t11, S % N, h11, Int.emod_nonneg _ (by omega), Int.emod_lt_of_pos _ hN, ?_⟩, fun h => absurd hg h⟩
      · rw [bind_ok (show _ = Out.ok ((0 : Int), s10) from e8), bind_ok e11]; rfl
      · exact (Int.ModEq.mul_left _ (Int.mod_modEq _ _)).trans b1
    | false =>
      rw [hsn, if_neg (by simp)] at e8
      have hS0 : 0 ≤ S := by rw [← q2, Mpi.toInt_false hsn]; positivity
      rw [abs_of_nonneg hS0] at b2
      obtain ⟨s11, e11, t11, h11⟩ := inv_close (w := w) (P := V w S 0) hrs a9 (fun v hv o ho => by
        by_cases hvr : v = r
        · subst hvr
          rw [Function.update_of_ne (by omega), Function.update_self] at ho
          unfold Five at ho; rw [Nums.hi] at ho
          unfold But; rw [Function.update_self]; exact ho
        · exact hlow v hv hvr o ho) hany
      refine ⟨0, s11, ?_, fun _ => ⟨rfl, t11, S, h11, hS0, ?_, b1⟩, fun h => absurd hg h⟩
      · rw [bind_ok (show _ = Out.ok ((0 : Int), s9) from e8), bind_ok e11]; rfl
      · rcases Int.lt_or_eq_of_le b2 with h | h
        · exact h
        · exfalso
          rw [h] at b1
          have h1 : N ∣ 1 := by
            have := (Int.modEq_iff_dvd.1 b1)
            exact (Int.dvd_iff_dvd_of_dvd_sub this).2 (Dvd.intro_left _ rfl)
          have hM1 : N = 1 := Int.eq_one_of_dvd_one hN.le h1
          have := b3 hM1
          omega
  · rw [decide_eq_false (by intro h; exact hg (by exact_mod_cast h))] at E1
    rw [bind_ok E1, if_neg (by simp)] at e8
    obtain ⟨s9, e9, t9, h9⟩ := zero_run (S := sp + 5) v2
    rw [bind_ok e9] at e8
    have a9 := step_at a8 (by omega) t9 h9
    obtain ⟨s11, e11, t11, h11⟩ := inv_close (w := w) (P := (· = s.obj r)) hrs a9 (fun v hv o ho => by
        rw [Function.update_of_ne (by omega)] at ho
        unfold Five at ho; rw [Nums.lo hv] at ho
        unfold But
        by_cases hvr : v = r
        · subst hvr; rw [Function.update_self]; exact ho
        · rw [Function.update_of_ne hvr]; exact ho) (fun i hi o ho => by
        by_cases h2 : i = 2
        · subst h2; rw [Function.update_self] at ho; exact ho.any
        · rw [Function.update_of_ne (by omega)] at ho; exact any5 i hi o ho)
    refine ⟨-1, s11, ?_, fun h => absurd h hg, fun _ => ⟨rfl, t11, h11⟩⟩
    rw [bind_ok (show _ = Out.ok ((-1 : Int), s9) from e8), bind_ok e11]; rfl

end Verif.Mem
