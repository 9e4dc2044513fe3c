import Verif.Lemmas.Mem.SafeVerify
import Verif.Props.Mem.Ecdsa
/-!
# C99: memory safety of the inverse, of point arithmetic, ECDSA and ECDH, whichever allocations fail

The pattern of failing allocations is arbitrary: nothing is assumed about `s.fails`.
-/
namespace Verif.Mem
open Verif.Mpi

section
variable {w : Nat} {s : St} {sp pr p1 p2 g kk q r t d n a m : Nat} {Z : Int}

/-- The objects of the caller now, those to be written only as far as they are numbers. -/
private def Wr (w : Nat) (s : St) (ws : List Nat) : Env := Sets (Now s) ws (Any w)

private theorem wr_in {ws : List Nat} {v : Nat} (h : v ∈ ws) : Wr w s ws v = Any w := if_pos h
private theorem wr_out {ws : List Nat} {v : Nat} (h : v ∉ ws) : Wr w s ws v = Now s v := if_neg h

private theorem wr_at {ws : List Nat} (h : ∀ v ∈ ws, ∃ z, (s.obj v).Is w z) : At (ctxOf sp s) (Wr w s ws) sp s :=
  (at_now sp s).le fun v _ o ho => by
    by_cases c : v ∈ ws
    · rw [wr_in c, show o = s.obj v from ho]
      obtain ⟨z, hz⟩ := h v c
      exact ⟨z, V.of_is hz⟩
    · rw [wr_out c]; exact ho

private theorem wr_rd {ws : List Nat} {v : Nat} (h : Readable w (s.obj v)) : Rd w (Wr w s ws) v := fun o ho => by
  by_cases c : v ∈ ws
  · rw [wr_in c] at ho; exact ho.imp fun _ h => h.shows
  · rw [wr_out c] at ho; rw [show o = s.obj v from ho]; exact h

private theorem wr_rdc {ws : List Nat} {v : Nat} (h : ReadableCoef w (s.obj v)) : RdC w (Wr w s ws) v := by
  rcases h with h | h
  · exact Or.inl (wr_rd h)
  by_cases c : v ∈ ws
  · exact Or.inl fun o ho => by rw [wr_in c] at ho; exact ho.imp fun _ h => h.shows
  · exact Or.inr fun o ho => by rw [wr_out c] at ho; rw [show o = s.obj v from ho]; exact h

private theorem wr_rd3 {ws : List Nat} (h : ReadableAt w s q) : Rd3 w (Wr w s ws) q :=
  ⟨wr_rd (h 0 (by omega)), wr_rd (h 1 (by omega)), wr_rd (h 2 (by omega))⟩

private theorem wr_shows {ws : List Nat} {v : Nat} {z : Int} (hv : v ∉ ws) (h : (s.obj v).Shows w z) : ∀ o, Wr w s ws v o → o.Shows w z := fun o ho => by
  rw [wr_out hv] at ho; rw [show o = s.obj v from ho]; exact h

private theorem wr_end {ws : List Nat} {P : Obj → Prop} {c : M Int} {E : Env} (h : Safe (ctxOf sp s) sp E E (c s))
    (hn : ∀ v, v ∉ ws → E v = Now s v) (hP : ∀ v, v ∈ ws → ∀ o, E v o → P o) : SafeEnd sp s ws P c := by
  rcases h with h | ⟨st, s', e, h⟩
  · exact Or.inl h
  · have hst : st = 0 ∨ st = -1 := h.imp (fun h => h.1) fun h => h.1
    replace h : At (ctxOf sp s) E sp s' := h.elim (fun h => h.2) fun h => h.2
    refine Or.inr ⟨st, s', e, hst, fun v hv hvw => ?_, fun v hv hvw => hP v hvw _ (h.objs v hv), ?_⟩
    · have := h.objs v hv
      rw [hn v hvw] at this
      exact this
    · have := h.bal
      have hB : (ctxOf sp s).B = s.live - ∑ v ∈ Finset.range sp, (s.obj v).owns := rfl
      unfold Balanced
      rw [hB] at this
      omega

private theorem wr_end' {ws : List Nat} {c : M Int} (h : Safe (ctxOf sp s) sp (Wr w s ws) (Wr w s ws) (c s)) :
    SafeEnd sp s ws (fun o => ∃ z, o.Is w z) c :=
  wr_end h (fun _ hv => wr_out hv) fun v hv o ho => by rw [wr_in hv] at ho; exact ho.imp fun _ h => h.is

private theorem three {v : Nat} : v ∈ [q, q + 1, q + 2] ↔ q ≤ v ∧ v ≤ q + 2 := by simp; omega

private theorem wr_three (h : ReadyAt w s q) : ∀ v ∈ [q, q + 1, q + 2], ∃ z, (s.obj v).Is w z := fun v hv => by
  obtain ⟨i, rfl⟩ : ∃ i, v = q + i := ⟨v - q, by have := three.1 hv; omega⟩
  exact h i (by have := three.1 hv; omega)

private theorem wr_rdy {ws : List Nat} (h : ∀ v ∈ [q, q + 1, q + 2], v ∈ ws) : Rdy w (Wr w s ws) q :=
  ⟨wr_in (h q (by simp)), wr_in (h (q + 1) (by simp)), wr_in (h (q + 2) (by simp))⟩

/-- C99: `cry_mpi_inv` with a positive modulus, for any number of turns the loop is granted; the argument may be any number, also
the result.  That the loop need not end is `mem_inv_never_returns`. -/
theorem mem_inv_safe (hw : DigitWidth w) (turns : Nat → Nat) (hr : r < sp) (ha : a < sp) (hm : m < sp) (ir : ∃ z, (s.obj r).Is w z) (ra : Readable w (s.obj a))
    (hM : (s.obj m).Shows w Z) (hZ : 0 < Z) (rm : m ≠ r) : SafeEnd sp s [r] (fun o => ∃ z, o.Is w z) (invTurns turns w sp r a m) := by
  have h := invTurns_safe hw turns (wr_at (w := w) (sp := sp) (ws := [r]) (by simpa using ir)) hr ha hm (fun o ho => by rwa [wr_in (by simp)] at ho) (wr_rd ra)
    (wr_shows (by simpa using rm) hM) hZ rm
  refine wr_end' (h.mono ?_ ?_) <;> exact (Le.refl _ _).update fun o ho => by rw [wr_in (by simp)]; exact ho

/-- C99: `cry_ecp_dbl`; nothing is assumed about the numbers at `p1`, which need not be a point of the curve and may overlap the
result. -/
theorem mem_ecp_dbl_safe (hw : DigitWidth w) (hpr : pr + 2 < sp) (h1 : p1 + 2 < sp) (hg : g + 1 < sp) (gp : g < pr ∨ pr + 2 < g)
    (wr : ReadyAt w s pr) (r1 : ReadableAt w s p1) (hZ : (s.obj g).Shows w Z) (hZ0 : 0 < Z) (ra : ReadableCoef w (s.obj (g + 1))) :
    SafeEnd sp s [pr, pr + 1, pr + 2] (fun o => ∃ z, o.Is w z) (ecpDbl w sp pr p1 g) :=
  wr_end' (ecpDbl_safe hw (wr_rdy fun _ h => h) (wr_rd3 r1) (wr_shows (by rw [three]; omega) hZ) hZ0 hpr h1 hg (wr_rdc ra) (wr_at (wr_three wr)))

/-- C99: `cry_ecp_add`. -/
theorem mem_ecp_add_safe (hw : DigitWidth w) (hpr : pr + 2 < sp) (h1 : p1 + 2 < sp) (h2 : p2 + 2 < sp) (hg : g + 1 < sp) (gp : g < pr ∨ pr + 2 < g)
    (wr : ReadyAt w s pr) (r1 : ReadableAt w s p1) (r2 : ReadableAt w s p2) (hZ : (s.obj g).Shows w Z) (hZ0 : 0 < Z) (ra : ReadableCoef w (s.obj (g + 1))) :
    SafeEnd sp s [pr, pr + 1, pr + 2] (fun o => ∃ z, o.Is w z) (ecpAdd w sp pr p1 p2 g) :=
  wr_end' (ecpAdd_safe hw (wr_rdy fun _ h => h) (wr_rd3 r1) (wr_shows (by rw [three]; omega) hZ) hZ0 hpr h1 hg (wr_rdc ra) (wr_rd3 r2) h2 (wr_at (wr_three wr)))

/-- C99: `cry_ecp_mul`. -/
theorem mem_ecp_mul_safe (hw : DigitWidth w) (hpr : pr + 2 < sp) (h1 : p1 + 2 < sp) (hk : kk < sp) (hg : g + 1 < sp) (gp : g < pr ∨ pr + 2 < g)
    (kp : kk < pr ∨ pr + 2 < kk) (wr : ReadyAt w s pr) (r1 : ReadableAt w s p1) (rk : Readable w (s.obj kk)) (hZ : (s.obj g).Shows w Z) (hZ0 : 0 < Z)
    (ra : ReadableCoef w (s.obj (g + 1))) :
    SafeEnd sp s [pr, pr + 1, pr + 2] (fun o => ∃ z, o.Is w z) (ecpMul w sp pr p1 kk g) :=
  wr_end' (ecpMul_any hw (wr_rd3 r1) (wr_shows (by rw [three]; omega) hZ) hZ0 (wr_rdc ra) (wr_rd rk) h1 hg hk (wr_rdy fun _ h => h) hpr kp (wr_at (wr_three wr)))

/-- C99: both steps of ECDH: `cry_ecdh_agree` writes the public key `q`, `cry_ecdh_final` the secret `z`. -/
theorem mem_ecdh_safe {z : Nat} (hw : DigitWidth w) (hg : g + 6 < sp) (hd : d < sp) (hq : q + 2 < sp) (hz : z + 2 < sp)
    (gq : g < q ∨ q + 2 < g) (gz : g < z ∨ z + 2 < g) (dq : d < q ∨ q + 2 < d) (dz : d < z ∨ z + 2 < d) (wq : ReadyAt w s q) (wz : ReadyAt w s z)
    (rd : Readable w (s.obj d)) (hZ : (s.obj g).Shows w Z) (hZ0 : 0 < Z) (ra : ReadableCoef w (s.obj (g + 1))) (rb : ReadableAt w s (g + 3)) :
    SafeEnd sp s [q, q + 1, q + 2] (fun o => ∃ z, o.Is w z) (ecdhAgree w sp g d q) ∧
    SafeEnd sp s [z, z + 1, z + 2] (fun o => ∃ z, o.Is w z) (ecdhFinal w sp g d q z) :=
  ⟨mem_ecp_mul_safe hw hq (by omega) hd (by omega) gq dq wq rb rd hZ hZ0 ra,
    mem_ecp_mul_safe hw hz hq hd (by omega) gz dz wz (fun i hi => (wq i hi).imp fun _ h => h.shows) rd hZ hZ0 ra⟩

/-- C99: `cry_ecdsa_keygen` writes the private key `d` and the public key `q`; the bytes of the generator reach the top digit of the
order. -/
theorem mem_ecdsa_keygen_safe (hw : DigitWidth w) (hg : g + 6 < sp) (hd : d < sp) (hq : q + 2 < sp) (gq : g < q ∨ q + 2 < g) (gd : g ≠ d)
    (nq : g + 6 < q ∨ q + 2 < g + 6) (nd : g + 6 ≠ d) (dq : d < q ∨ q + 2 < d) (wq : ReadyAt w s q) (wd : ∃ z, (s.obj d).Is w z ∧ 0 ≤ z)
    (hZ : (s.obj g).Shows w Z) (hZ0 : 0 < Z) (ra : ReadableCoef w (s.obj (g + 1))) (rb : ReadableAt w s (g + 3)) (hn : (s.obj (g + 6)).Shows w n) (hn0 : 0 < n)
    (bs : List Byte) (hl : bs.length = (n.size + 7) / 8) (hV : (2 ^ w) ^ ((n.size - 1) / w) ≤ beVal bs) :
    SafeEnd sp s [d, q, q + 1, q + 2] (fun o => ∃ z, o.Is w z) (ecdsaKeygen w sp d q g bs) := by
  have m4 : ∀ v, v ∈ [d, q, q + 1, q + 2] ↔ v = d ∨ (q ≤ v ∧ v ≤ q + 2) := fun v => by simp; omega
  refine wr_end' (ecdsaKeygen_safe hw (wr_shows ?_ hZ) hZ0 (wr_rdc ra) (wr_rd3 rb) (wr_shows ?_ hn) hn0 (wr_in (by simp))
    (wd.imp fun z h => ⟨V.of_is h.1, h.2⟩) (wr_rdy fun v hv => ?_) hg hd hq nd dq bs hl hV (wr_at ?_))
  · rw [m4]; omega
  · rw [m4]; omega
  · exact List.mem_cons_of_mem _ hv
  · intro v hv
    rcases List.mem_cons.1 hv with rfl | hv
    · exact wd.imp fun _ h => h.1
    · exact wr_three wq v hv

/-- C99: `cry_ecdsa_sign` writes `r` and `t`; a number whose sign was not brought in order can remain in the second. -/
theorem mem_ecdsa_sign_safe (hw : DigitWidth w) (hg : g + 6 < sp) (hd : d < sp) (hr : r < sp) (ht : t < sp) (rg : r ≠ g) (rn : r ≠ g + 6) (tg : t ≠ g)
    (tn : t ≠ g + 6) (hZ : (s.obj g).Shows w Z) (hZ0 : 0 < Z) (ra : ReadableCoef w (s.obj (g + 1))) (rb : ReadableAt w s (g + 3))
    (hn : (s.obj (g + 6)).Shows w n) (hn0 : 0 < n) (rd : Readable w (s.obj d)) (ir : ∃ z, (s.obj r).Is w z) (it : ∃ z, (s.obj t).Is w z)
    (msg bs : List Byte) (hl : bs.length = (n.size + 7) / 8) (hV : (2 ^ w) ^ ((n.size - 1) / w) ≤ beVal bs) :
    SafeEnd sp s [r, t] (fun o => ∃ z, o.IsUpToSign w z) (ecdsaSign w sp g d r t msg bs) := by
  have h := ecdsaSign_safe (A := Wr w s [r, t]) (K := ctxOf sp s) (sp := sp) (g := g) (d := d) (r := r) (t := t) hw (wr_shows (by simp; omega) hZ) hZ0 (wr_rdc ra) (wr_rd3 rb) (wr_shows (by simp; omega) hn) hn0
    (wr_rd rd) (wr_in (by simp)) (wr_in (by simp)) hg hd hr ht (by omega) msg bs hl hV (wr_at (by simpa using ⟨ir, it⟩))
  have up : ∀ {o : Obj}, AnyR w o → ∃ z, o.IsUpToSign w z := fun h => by
    obtain ⟨z, m, h1, h2⟩ := h
    exact ⟨z, m, h1.1, h1.2, h2.1⟩
  refine wr_end h (fun v hv => ?_) fun v hv o ho => ?_
  · rw [Function.update_of_ne (by rintro rfl; simp at hv)]; exact wr_out hv
  · by_cases e : v = t
    · subst e; rw [Function.update_self] at ho; exact up ho
    · rw [Function.update_of_ne e, wr_in hv] at ho; exact up ho.r

/-- C99: `cry_ecdsa_verify` writes nothing of the caller's and is safe for exactly those patterns of failing requests in which one of
its first two requests (for `z` and `w`) fails, or the four after them all succeed.  In the other patterns the behaviour is undefined: the
failure of the local point `P`, or of the first coordinate of the local point `Q`, makes the function clear numbers nobody initialised. -/
theorem mem_ecdsa_verify_safe_partial (hw : DigitWidth w) (hg : g + 6 < sp) (hq : q + 2 < sp) (hr : r < sp) (ht : t < sp)
    (hZ : (s.obj g).Shows w Z) (hZ0 : 0 < Z) (ra : ReadableCoef w (s.obj (g + 1))) (rb : ReadableAt w s (g + 3))
    (hn : (s.obj (g + 6)).Shows w n) (hn0 : 0 < n) (rq : ReadableAt w s q) (rr : Readable w (s.obj r)) (rt : Readable w (s.obj t)) (msg : List Byte) :
    let lost := (∀ k, k < 2 → s.fails (s.tick + k) = false) ∧ ∃ k, 2 ≤ k ∧ k < 6 ∧ s.fails (s.tick + k) = true
    (lost → ecdsaVerify w sp g q r t msg s = .ub) ∧ (¬ lost → SafeEnd sp s [] (fun _ => False) (ecdsaVerify w sp g q r t msg)) :=
  ⟨fun h => ecdsaVerify_early hw (wr_at (w := w) (ws := []) (by simp)) msg h.1 h.2, fun h =>
    wr_end (ecdsaVerify_safe' (A := Wr w s []) (K := ctxOf sp s) hw (wr_shows (by simp) hZ) hZ0 (wr_rdc ra) (wr_rd3 rb) (wr_shows (by simp) hn) hn0 (wr_rd3 rq) (wr_rd rr) (wr_rd rt)
      hg hq hr ht msg h (wr_at (by simp))) (fun v hv => wr_out hv) fun v hv => by simp at hv⟩

end

/-! ### Concrete cases -/

/-- The hypotheses of the theorems on points are met, whichever requests fail: the double of (5, 1) over (6, 3), the sum of both, and
the multiple by 7, over one of the summands. -/
example (f : Nat → Bool) : SafeEnd 14 (exEcp f) [3, 4, 5] (fun o => ∃ z, o.Is 8 z) (ecpDbl 8 14 3 0 6) ∧
    SafeEnd 14 (exEcp f) [3, 4, 5] (fun o => ∃ z, o.Is 8 z) (ecpAdd 8 14 3 0 3 6) ∧
    SafeEnd 14 (exEcp f) [3, 4, 5] (fun o => ∃ z, o.Is 8 z) (ecpMul 8 14 3 0 13 6) ∧
    SafeEnd 14 (exEcp f) [13] (fun o => ∃ z, o.Is 8 z) (inv 8 14 13 13 6) := by
  have r0 : ReadableAt 8 (exEcp f) 0 := fun i hi => by
    obtain ⟨x, y, z, ⟨h1, h2, h3⟩, -⟩ := exEcp_p f
    obtain rfl | rfl | rfl : i = 0 ∨ i = 1 ∨ i = 2 := by omega
    exacts [⟨_, h1⟩, ⟨_, h2⟩, ⟨_, h3⟩]
  have r3 : ReadableAt 8 (exEcp f) 3 := fun i hi => (exEcp_ready f i hi).imp fun _ h => h.shows
  have hp : ((exEcp f).obj 6).Shows 8 17 := (exEcp_grp f).1
  have ha : ReadableCoef 8 ((exEcp f).obj 7) := Or.inl ⟨_, (exNum_is (n := 2) (by decide) (by decide)).shows⟩
  have hk : ((exEcp f).obj 13).Is 8 (7 : Nat) := exNum_is (by decide) (by decide)
  exact ⟨mem_ecp_dbl_safe (Or.inl rfl) (by decide) (by decide) (by decide) (by decide) (exEcp_ready f) r0 hp (by decide) ha,
    mem_ecp_add_safe (Or.inl rfl) (by decide) (by decide) (by decide) (by decide) (by decide) (exEcp_ready f) r0 r3 hp (by decide) ha,
    mem_ecp_mul_safe (Or.inl rfl) (by decide) (by decide) (by decide) (by decide) (by decide) (by decide) (exEcp_ready f) r0 ⟨_, hk.shows⟩ hp (by decide) ha,
    mem_inv_safe (Or.inl rfl) _ (by decide) (by decide) (by decide) ⟨_, hk⟩ ⟨_, hk.shows⟩ hp (by decide) (by decide)⟩

/-- (0, 2) at 0, (5, 1) at 3, and the group y² = x³ + 4 modulo 17 at 6, whose coefficient 0 is the constant of one zero digit, as in the
three groups with `k1` in their names. -/
def exZed (f : Nat → Bool) : St :=
  ⟨fun v => if v = 7 then ⟨some ⟨false, 1, 1⟩, .mem false [some 0]⟩ else
    match [0, 2, 1, 5, 1, 1, 17, 0][v]? with
    | some 0 => ⟨some ⟨false, 0, 1⟩, .mem true [some 0]⟩
    | some n => exNum n
    | none => ⟨some ⟨false, 0, 0⟩, .null⟩, f, 0, 7⟩

/-- The coefficient is not a number in standard form, yet the doubling is safe, whichever requests fail; here `3 x²` vanishes. -/
example (f : Nat → Bool) : ¬ Readable 8 ((exZed f).obj 7) ∧ SafeEnd 8 (exZed f) [3, 4, 5] (fun o => ∃ z, o.Is 8 z) (ecpDbl 8 8 3 0 6) := by
  have h0 : ((exZed f).obj 0).Shows 8 0 := ⟨⟨false, []⟩, ⟨⟨by simp [Digits], by simp [TopNZ]⟩, fun _ => rfl⟩, by simp [Mpi.toInt, val], 1, rfl, List.nil_prefix⟩
  refine ⟨?_, mem_ecp_dbl_safe (Z := 17) (Or.inl rfl) (by decide) (by decide) (by decide) (by decide) (fun i hi => ?_) (fun i hi => ?_)
    (exNum_is (n := 17) (by decide) (by decide)).shows (by decide) (Or.inr ⟨1, rfl, [], rfl⟩)⟩
  · rintro ⟨z, ⟨g, ds⟩, h1, -, a, h2, t, h3⟩
    have hl : ds.length = 1 := by
      have := congrArg (Option.map Hdr.used) h2
      simpa [exZed] using this.symm
    obtain ⟨d, rfl⟩ := List.length_eq_one_iff.1 hl
    have hd : d = 0 := by
      have := congrArg (fun l => l[0]?) h3
      simpa [exZed, Obj.cells, Data.cells] using this
    have := h1.toNorm.top
    simp [TopNZ, hd] at this
  · obtain rfl | rfl | rfl : i = 0 ∨ i = 1 ∨ i = 2 := by omega
    exacts [⟨5, exNum_is (n := 5) (by decide) (by decide)⟩, ⟨1, exNum_is (n := 1) (by decide) (by decide)⟩, ⟨1, exNum_is (n := 1) (by decide) (by decide)⟩]
  · obtain rfl | rfl | rfl : i = 0 ∨ i = 1 ∨ i = 2 := by omega
    exacts [⟨_, h0⟩, ⟨2, (exNum_is (n := 2) (by decide) (by decide)).shows⟩, ⟨1, (exNum_is (n := 1) (by decide) (by decide)).shows⟩]

/-- The same run with memory enough, computed: the double is (0, 15); and with the tenth request failing: -1, and no block is lost. -/
example : (∃ s', ecpDbl 8 8 3 0 6 (exZed fun _ => false) = .ok (0, s') ∧ decide ([3, 4, 5].map (fun v => (s'.obj v).hdr.map Hdr.used) = [some 0, some 1, some 1] ∧
      (s'.obj 4).cells[0]? = some (some 15) ∧ s'.live = 7) = true) ∧
    ∃ s', ecpDbl 8 8 3 0 6 (exZed (· == 9)) = .ok (-1, s') ∧ decide (s'.live = 7) = true :=
  ⟨endsIn_ok (by decide +kernel), endsIn_ok (by decide +kernel)⟩

section
variable (f : Nat → Bool)
private theorem ex_rd (v n : Nat) (h : [17, 2, 6, 1, 3, 1, 11, 4, 11, 13, 1, 2, 7][v]? = some n) (h0 : 0 < n) (h1 : n < 256) : ∃ z, ((exEcdsa f).obj v).Is 8 z :=
  ⟨_, exEcdsa_at f v n h h0 h1⟩

private theorem ex_base : ReadableAt 8 (exEcdsa f) 3 := fun i hi => by
  obtain rfl | rfl | rfl : i = 0 ∨ i = 1 ∨ i = 2 := by omega
  exacts [⟨_, (exEcdsa_base f).1⟩, ⟨_, (exEcdsa_base f).2.1⟩, ⟨_, (exEcdsa_base f).2.2⟩]

private theorem ex_pub : ReadyAt 8 (exEcdsa f) 8 := fun i hi => by
  obtain rfl | rfl | rfl : i = 0 ∨ i = 1 ∨ i = 2 := by omega
  exacts [ex_rd f 8 11 rfl (by decide) (by decide), ex_rd f 9 13 rfl (by decide) (by decide), ex_rd f 10 1 rfl (by decide) (by decide)]

/-- The hypotheses of the theorems on ECDSA and ECDH are met, whichever requests fail. -/
example : SafeEnd 13 (exEcdsa f) [11, 12] (fun o => ∃ z, o.IsUpToSign 8 z) (ecdsaSign 8 13 0 7 11 12 [9] [5]) ∧
    SafeEnd 13 (exEcdsa f) [7, 8, 9, 10] (fun o => ∃ z, o.Is 8 z) (ecdsaKeygen 8 13 7 8 0 [5]) ∧
    SafeEnd 13 (exEcdsa f) [8, 9, 10] (fun o => ∃ z, o.Is 8 z) (ecdhAgree 8 13 0 7 8) ∧
    ((f 1 = true ∨ f 2 = false ∧ f 3 = false ∧ f 4 = false ∧ f 5 = false) → SafeEnd 13 (exEcdsa f) [] (fun _ => False) (ecdsaVerify 8 13 0 8 11 12 [6])) ∧
    (f 0 = false ∧ f 1 = false ∧ f 5 = true → ecdsaVerify 8 13 0 8 11 12 [6] (exEcdsa f) = .ub) := by
  have hp : ((exEcdsa f).obj 0).Shows 8 (17 : Nat) := (exEcdsa_at f 0 17 rfl (by decide) (by decide)).shows
  have hn : ((exEcdsa f).obj 6).Shows 8 (11 : Nat) := (exEcdsa_at f 6 11 rfl (by decide) (by decide)).shows
  have ha : ReadableCoef 8 ((exEcdsa f).obj 1) := Or.inl ⟨_, (exEcdsa_at f 1 2 rfl (by decide) (by decide)).shows⟩
  have hd := exEcdsa_at f 7 4 rfl (by decide) (by decide)
  have ir := ex_rd f 11 2 rfl (by decide) (by decide)
  have it := ex_rd f 12 7 rfl (by decide) (by decide)
  have ver := mem_ecdsa_verify_safe_partial (sp := 13) (g := 0) (q := 8) (r := 11) (t := 12) (Or.inl rfl) (by decide) (by decide) (by decide) (by decide) hp (by decide) ha (ex_base f) hn
    (by decide) (fun i hi => (ex_pub f i hi).imp fun _ h => h.shows) (ir.imp fun _ h => h.shows) (it.imp fun _ h => h.shows) [6]
  refine ⟨mem_ecdsa_sign_safe (Or.inl rfl) (by decide) (by decide) (by decide) (by decide) (by decide) (by decide) (by decide) (by decide) hp (by decide) ha (ex_base f) hn
      (by decide) ⟨_, hd.shows⟩ ir it [9] [5] rfl (by decide),
    mem_ecdsa_keygen_safe (Or.inl rfl) (by decide) (by decide) (by decide) (by decide) (by decide) (by decide) (by decide) (by decide) (ex_pub f) ⟨_, hd, by decide⟩ hp
      (by decide) ha (ex_base f) hn (by decide) [5] rfl (by decide),
    mem_ecp_mul_safe (Or.inl rfl) (by decide) (by decide) (by decide) (by decide) (by decide) (by decide) (ex_pub f) (ex_base f) ⟨_, hd.shows⟩ hp (by decide) ha,
    fun hf => ver.2 ?_, fun hf => ver.1 ⟨?_, 5, by decide, by decide, hf.2.2⟩⟩
  · rintro ⟨h1, k, k1, k2, h2⟩
    rcases hf with hf | hf
    · exact absurd (h1 1 (by decide)) (by rw [show (exEcdsa f).fails ((exEcdsa f).tick + 1) = f 1 from rfl, hf]; decide)
    · obtain rfl | rfl | rfl | rfl : k = 2 ∨ k = 3 ∨ k = 4 ∨ k = 5 := by omega
      · exact absurd (hf.1.symm.trans h2) (by decide)
      · exact absurd (hf.2.1.symm.trans h2) (by decide)
      · exact absurd (hf.2.2.1.symm.trans h2) (by decide)
      · exact absurd (hf.2.2.2.symm.trans h2) (by decide)
  · intro k hk
    obtain rfl | rfl : k = 0 ∨ k = 1 := by omega
    exacts [hf.1, hf.2.1]
end

end Verif.Mem
