import Verif.Lemmas.Mem.Shy
import Verif.Props.Mem.Ecp
import Verif.Spec.MemPk
/-!
# C85, C86: random numbers and DSA in memory

`cry_mpi_rand`, `cry_mpi_rand_range`, `cry_dsa_sign` and `cry_dsa_verify` with all their local objects.
-/
namespace Verif.Mem
open Verif.Mpi

section
variable {w sp r x : Nat} {s : St} {z : Int}

/-- C85, partial.  Full statement: `cry_mpi_rand` makes a number of exactly `bits` bits from the bytes of the generator, or
reports that an allocation failed, with the destination as it was.  Proved: whichever allocations fail, for a destination
that is not negative and bytes that do not begin with so many zeros that the top digit is missing.  Missing: such bytes, where
the top digit is read though it was never written (`mem_rand_zeros`), and a negative destination, which stays negative. -/
theorem mem_rand_partial (hw : DigitWidth w) (h : (s.obj r).Is w z) (hz : 0 ≤ z) {bits : Nat} (hb : 0 < bits) (bs : List Byte)
    (hl : bs.length = (bits + 7) / 8) (hV : (2 ^ w) ^ ((bits - 1) / w) ≤ beVal bs) :
    Outcome sp s r (rand w r bits bs) (Obj.Is w ((beVal bs % 2 ^ (bits - 1) + 2 ^ (bits - 1) : Nat) : Int)) (Obj.Is w z) :=
  ((rand_leaf hw (S := sp) (V.of_is h) hz bs hl hb hV).mono (fun _ h => h.is) fun _ h => h.is).outcome

/-- C85, partial in the same way: `cry_mpi_rand_range` makes a number below `M`.  When the reduction fails for lack of memory
the destination is a number still. -/
theorem mem_randRange_partial (hw : DigitWidth w) (h : (s.obj r).Is w z) (hz : 0 ≤ z) {M : Nat} (hx : (s.obj x).Shows w M) (hM : 0 < M)
    (hr : r < sp) (hxs : x < sp) (hrx : x ≠ r) (bs : List Byte) (hl : bs.length = (M.size + 7) / 8)
    (hV : (2 ^ w) ^ ((M.size - 1) / w) ≤ beVal bs) :
    Outcome sp s r (randRange w sp r x bs) (Obj.Is w (((beVal bs % 2 ^ (M.size - 1) + 2 ^ (M.size - 1)) % M : Nat) : Int))
      (fun o => ∃ z, o.Is w z) :=
  ((randRange_leaf hw (V.of_is h) hz hx hM hr hxs hrx bs hl hV).mono (fun _ h => h.is) fun _ h => h.imp fun _ h => h.is).outcome

/-- C85, where it fails: for every size, when the generator delivers zeros and the destination has just been initialised, a digit
that was never written is read. -/
theorem mem_rand_zeros {bits : Nat} {al n : Nat} {g : Bool} (hr : s.obj r = ⟨some ⟨g, 0, al⟩, .mem true (List.replicate n none)⟩)
    (hb : 0 < bits) (m : Nat) (hf : s.fails s.tick = false) : rand w r bits (List.replicate m 0) s = .ub := by
  have e1 : request 1 s = .ok (true, { s with tick := s.tick + 1, live := s.live + 1 }) := if_neg (by rw [hf]; simp)
  unfold rand
  rw [if_neg (by omega), bind_ok e1, if_pos rfl]
  have e2 : ∀ k : M Int, (∀ s', s'.obj r = ⟨some ⟨false, 0, al⟩, .mem true (List.replicate n none)⟩ → k s' = .ub) →
      (do
        let st ← chk (loadBin w r (List.replicate m 0)) k
        release
        pure st : M Int) { s with tick := s.tick + 1, live := s.live + 1 } = .ub := by
    intro k hk
    have hd : (List.replicate m (0 : Byte)).dropWhile (· == 0#8) = [] := by
      induction m with
      | zero => rfl
      | succ m ih => rw [List.replicate_succ, List.dropWhile_cons_of_pos (by rfl)]; exact ih
    have e3 : loadBin w r (List.replicate m 0) { s with tick := s.tick + 1, live := s.live + 1 } =
        .ok (0, St.set { s with tick := s.tick + 1, live := s.live + 1 } r ⟨some ⟨false, 0, al⟩, .mem true (List.replicate n none)⟩) := by
      unfold loadBin
      rw [hd]
      show (zero r >>= fun _ => pure (0 : Int) : M Int) { s with tick := s.tick + 1, live := s.live + 1 } = _
      rw [bind_ok (zero_ok (h := ⟨g, 0, al⟩) (by show (s.obj r).hdr = _; rw [hr]))]
      unfold St.upd
      show Out.ok ((0 : Int), _) = _
      simp only [hr]
      rfl
    have e4 := hk (St.set { s with tick := s.tick + 1, live := s.live + 1 } r ⟨some ⟨false, 0, al⟩, .mem true (List.replicate n none)⟩)
      (if_pos rfl)
    rw [bind_apply, chk_ok e3, e4]
  refine e2 _ fun s' h' => ?_
  have rub : ∀ i, rd r i s' = .ub := by
    intro i
    unfold rd
    show (match (s'.obj r).data with | .mem _ cells => (match cells[i]? with | some (some d) => pure d | _ => ub) | _ => ub : M Nat) s' = .ub
    rw [h']
    dsimp only
    cases hi : (List.replicate n (none : Option Nat))[i]? with
    | none => rfl
    | some o =>
      have := List.getElem?_eq_some_iff.1 hi
      obtain ⟨h1, h2⟩ := this
      rw [List.getElem_replicate] at h2
      subst h2; rfl
  dsimp only
  have bub : ∀ {α : Type} (i : Nat) (f : Nat → M α), (rd r i >>= f) s' = .ub := by
    intro α i f; rw [bind_apply, rub]
  split
  · exact bub _ _
  · exact bub _ _

end

section
variable {w sp p q g pub pvt r t : Nat} {s : St} {P Q : Nat} {G Y D R T : Int}

/-- C86, partial.  Full statement: `cry_dsa_verify` returns 0 exactly for the signatures that satisfy the verification equation, and
a failing allocation is reported.  Proved: when no allocation fails, the caller's objects and the allocated blocks are as before, and
the status is 0 exactly if the equation holds or `s` has no inverse.  Missing: a signature whose `s` has no inverse is accepted
(C49), and a failing allocation makes every signature accepted (`mem_dsa_verify_lost`). -/
theorem mem_dsa_verify_partial (hw : DigitWidth w) (hs : Plenty s) (hp : p < sp) (hq : q < sp) (hg : g < sp) (hy : pub < sp) (hr : r < sp)
    (ht : t < sp) (ap : (s.obj p).Shows w P) (aq : (s.obj q).Shows w Q) (ag : (s.obj g).Shows w G) (ay : (s.obj pub).Shows w Y)
    (ar : (s.obj r).Shows w R) (at' : (s.obj t).Shows w T) (hP : 1 < P) (hQ : 0 < Q) (msg : List Byte) :
    ((Int.gcd T Q ≠ 1 ∨ Dsa.Equation P Q G Y (cutVal w Q msg) R T) → EndsSame sp s (dsaVerify w sp p q g pub r t msg) 0) ∧
    (¬ (Int.gcd T Q ≠ 1 ∨ Dsa.Equation P Q G Y (cutVal w Q msg) R T) → EndsSame sp s (dsaVerify w sp p q g pub r t msg) (-1)) := by
  obtain ⟨st, s', e, h, hst⟩ := dsaVerify_calm hw (K := ctxOf sp s) hs (at_now sp s) hp hq hg hy hr ht (fun o ho => by rw [ho]; exact ap)
    (fun o ho => by rw [ho]; exact aq) (fun o ho => by rw [ho]; exact ag) (fun o ho => by rw [ho]; exact ay) (fun o ho => by rw [ho]; exact ar)
    (fun o ho => by rw [ho]; exact at') hP hQ msg
  have hsame := At.same rfl h
  rcases hst with ⟨rfl, h1⟩ | ⟨rfl, h1⟩
  · exact ⟨fun _ => ⟨s', e, hsame⟩, fun h => absurd h1 h⟩
  · exact ⟨fun h => absurd h h1, fun _ => ⟨s', e, hsame⟩⟩

/-- C86, where it fails: whatever the key, the message and the signature, when the four locals could be allocated and the
next request fails, the signature is accepted. -/
theorem mem_dsa_verify_lost (hw : DigitWidth w) (hq : q < sp) (ht : t < sp) (aq : (s.obj q).Shows w Q) (at' : (s.obj t).Shows w T) (msg : List Byte)
    (hf : ∀ k, k < 4 → s.fails (s.tick + k) = false) (hf4 : s.fails (s.tick + 4) = true) :
    EndsSame sp s (dsaVerify w sp p q g pub r t msg) 0 := by
  obtain ⟨mq, -, -, hm⟩ := aq
  obtain ⟨s', e, h⟩ := dsaVerify_lost (p := p) (g := g) (pub := pub) (r := r) hw (at_now sp s) hq ht (fun o ho => by rw [ho]; exact hm)
    (fun o ho => by rw [ho]; exact at') msg hf hf4
  exact ⟨s', e, At.same rfl h⟩

/-- C86, partial.  Full statement: `cry_dsa_sign` returns 0 with a signature made with the secret number of the generator, or
reports that an allocation failed.  Proved: when no allocation fails, for a prime `Q` and bytes that reach the top digit;
the objects of the signature may not be those of the key.  Missing: failing allocations, where it is false
(`mem_dsa_sign_lost`). -/
theorem mem_dsa_sign_partial (hw : DigitWidth w) (hs : Plenty s) (hp : p < sp) (hq : q < sp) (hg : g < sp) (hd : pvt < sp) (hr : r < sp)
    (ht : t < sp) (rp : r ≠ p) (rq : r ≠ q) (rg : r ≠ g) (rd : r ≠ pvt) (rt : r ≠ t) (tq : t ≠ q)
    (ap : (s.obj p).Shows w P) (aq : (s.obj q).Shows w Q) (ag : (s.obj g).Shows w G) (ad : (s.obj pvt).Shows w D)
    (ar : (s.obj r).Is w R) (at' : (s.obj t).Is w T) (hP : 1 < P) (hQ : Q.Prime) (msg bs : List Byte)
    (hl : bs.length = (Q.size + 7) / 8) (hV : (2 ^ w) ^ ((Q.size - 1) / w) ≤ beVal bs) :
    ∃ s' k T', dsaSign w sp p q g pvt r t msg bs s = .ok (0, s') ∧ k = (beVal bs % 2 ^ (Q.size - 1) + 2 ^ (Q.size - 1)) % (Q - 1) + 1 ∧
      (s'.obj r).Is w (G ^ k % P % Q) ∧ (s'.obj t).Is w T' ∧ 0 ≤ T' ∧ T' < Q ∧
      k * T' ≡ cutVal w Q msg + D * (G ^ k % P % Q) [ZMOD Q] ∧
      (∀ v, v < sp → v ≠ r → v ≠ t → s'.obj v = s.obj v) ∧ s'.fails = s.fails ∧
      s'.live - ((s'.obj r).owns + (s'.obj t).owns) = s.live - ((s.obj r).owns + (s.obj t).owns) := by
  obtain ⟨s', T', e, h, h0, h1, h2⟩ := dsaSign_calm hw (K := ctxOf sp s) hs (at_now sp s) hp hq hg hd hr ht rp rq rg rd rt tq
    (fun o ho => by rw [ho]; exact ap) (fun o ho => by rw [ho]; exact aq) (fun o ho => by rw [ho]; exact ag) (fun o ho => by rw [ho]; exact ad)
    (fun o ho => by rw [ho]; exact ⟨R, V.of_is ar⟩) (fun o ho => by rw [ho]; exact ⟨T, V.of_is at'⟩) hP hQ msg bs hl hV
  have vr := h.objs r hr
  rw [Function.update_of_ne rt, Function.update_self] at vr
  have vt := h.objs t ht
  rw [Function.update_self] at vt
  have hf : ∀ v, v < sp → v ≠ r → v ≠ t → s'.obj v = s.obj v := fun v hv h1 h2 => by
    have := h.objs v hv; rwa [Function.update_of_ne h2, Function.update_of_ne h1] at this
  refine ⟨s', _, T', e, rfl, vr.is, vt.is, h0, h1, h2, hf, h.orc, ?_⟩
  have hb := h.bal
  have e1 := sum_change (f := fun v => (s.obj v).owns) (g := Function.update (fun v => (s.obj v).owns) r (s'.obj r).owns) hr
    fun v _ hv => by rw [Function.update_of_ne hv]
  have e2 := sum_change (f := Function.update (fun v => (s.obj v).owns) r (s'.obj r).owns) (g := fun v => (s'.obj v).owns) ht
    fun v hv hv' => by
      by_cases h1 : v = r
      · subst h1; rw [Function.update_self]
      · rw [Function.update_of_ne h1, hf v hv h1 hv']
  have : (ctxOf sp s).B = s.live - ∑ v ∈ Finset.range sp, (s.obj v).owns := rfl
  rw [Function.update_self] at e1
  rw [Function.update_of_ne (Ne.symm rt)] at e2
  rw [this] at hb
  omega

/-- C86, where it fails: whatever the key and the message, when the two locals could be allocated and the next request fails,
success is reported, and the signature is whatever the objects held before. -/
theorem mem_dsa_sign_lost (hw : DigitWidth w) (hq : q < sp) (aq : (s.obj q).Shows w Q) (msg bs : List Byte)
    (hf : ∀ k, k < 2 → s.fails (s.tick + k) = false) (hf2 : s.fails (s.tick + 2) = true) :
    EndsSame sp s (dsaSign w sp p q g pvt r t msg bs) 0 := by
  obtain ⟨mq, -, -, hm⟩ := aq
  obtain ⟨s', e, h⟩ := dsaSign_lost (p := p) (g := g) (pvt := pvt) (r := r) (t := t) hw (at_now sp s) hq (fun o ho => by rw [ho]; exact hm)
    msg bs hf hf2
  exact ⟨s', e, At.same rfl h⟩

/-- C86: a signature made in memory is accepted with the public key. -/
theorem mem_dsa_sign_verify {G D : Nat} (hw : DigitWidth w) (hs : Plenty s) (hp : p < sp) (hq : q < sp) (hg : g < sp) (hd : pvt < sp) (hy : pub < sp)
    (hr : r < sp) (ht : t < sp) (rp : r ≠ p) (rq : r ≠ q) (rg : r ≠ g) (rd : r ≠ pvt) (ry : r ≠ pub) (rt : r ≠ t)
    (tp : t ≠ p) (tq : t ≠ q) (tg : t ≠ g) (ty : t ≠ pub)
    (ap : (s.obj p).Shows w P) (aq : (s.obj q).Shows w Q) (ag : (s.obj g).Shows w G) (ad : (s.obj pvt).Shows w D)
    (ay : (s.obj pub).Shows w ((G ^ D % P : Nat) : Int)) (ar : (s.obj r).Is w R) (at' : (s.obj t).Is w T) (hP : 1 < P) (hQ : Q.Prime)
    (ho : G ^ Q ≡ 1 [MOD P]) (msg bs : List Byte) (hl : bs.length = (Q.size + 7) / 8) (hV : (2 ^ w) ^ ((Q.size - 1) / w) ≤ beVal bs) :
    ∃ s', dsaSign w sp p q g pvt r t msg bs s = .ok (0, s') ∧ EndsSame sp s' (dsaVerify w sp p q g pub r t msg) 0 := by
  obtain ⟨s', k, T', e, -, hR, hT, t0, t1, hk, hf, hF, -⟩ := mem_dsa_sign_partial hw hs hp hq hg hd hr ht rp rq rg rd rt tq ap aq ag ad ar at' hP hQ msg bs hl hV
  refine ⟨s', e, ?_⟩
  have R' : ((G : Int) ^ k % P % Q) = ((G ^ k % P % Q : Nat) : Int) := by push_cast; rfl
  refine (mem_dsa_verify_partial (R := (G : Int) ^ k % P % Q) (T := T') hw (fun k => by rw [hF]; exact hs k) hp hq hg hy hr ht (by rw [hf p hp rp.symm tp.symm]; exact ap)
    (by rw [hf q hq rq.symm tq.symm]; exact aq) (by rw [hf g hg rg.symm tg.symm]; exact ag) (by rw [hf pub hy ry.symm ty.symm]; exact ay)
    hR.shows hT.shows hP hQ.pos msg).1 ?_
  obtain ⟨n, rfl⟩ := Int.eq_ofNat_of_zero_le t0
  by_cases hn : n = 0
  · left
    subst hn
    rw [show ((0 : Nat) : Int) = 0 from rfl, Int.gcd_zero_left, Int.natAbs_natCast]
    exact hQ.one_lt.ne'
  · right
    rw [R']
    refine dsa_equation_of_sign (k := k) hP hQ ho (by exact_mod_cast t1) hn rfl ?_
    rw [R'] at hk
    exact_mod_cast hk

end

/-! ### Concrete cases -/

/-- The toy key p = 11, q = 5, g = 3, x = 2, y = 9, a signature r = 4, s = 2 and a wrong one r = 1, s = 2. -/
def exDsa (f : Nat → Bool) : St :=
  ⟨fun v => match [11, 5, 3, 2, 9, 4, 2, 1][v]? with
    | some n => exNum n
    | none => ⟨some ⟨false, 0, 8⟩, .mem true (List.replicate 8 none)⟩, f, 0, 30⟩

theorem exDsa_1 (f : Nat → Bool) : ((exDsa f).obj 7).Is 8 (1 : Nat) := exNum_is (n := 1) (by decide) (by decide)

section
variable (f : Nat → Bool)
theorem exDsa_p : ((exDsa f).obj 0).Shows 8 (11 : Nat) := (exNum_is (n := 11) (by decide) (by decide)).shows
theorem exDsa_q : ((exDsa f).obj 1).Shows 8 (5 : Nat) := (exNum_is (n := 5) (by decide) (by decide)).shows
theorem exDsa_g : ((exDsa f).obj 2).Shows 8 (3 : Nat) := (exNum_is (n := 3) (by decide) (by decide)).shows
theorem exDsa_x : ((exDsa f).obj 3).Shows 8 (2 : Nat) := (exNum_is (n := 2) (by decide) (by decide)).shows
theorem exDsa_y : ((exDsa f).obj 4).Shows 8 (9 : Nat) := (exNum_is (n := 9) (by decide) (by decide)).shows
theorem exDsa_r : ((exDsa f).obj 5).Is 8 (4 : Nat) := exNum_is (n := 4) (by decide) (by decide)
theorem exDsa_s : ((exDsa f).obj 6).Is 8 (2 : Nat) := exNum_is (n := 2) (by decide) (by decide)
end

/-- The hypotheses of the theorems on random numbers are met. -/
example (f : Nat → Bool) : Outcome 8 (exDsa f) 7 (rand 8 7 11 [7, 1]) (Obj.Is 8 (1793 : Nat)) (Obj.Is 8 (1 : Nat)) :=
  mem_rand_partial (r := 7) (bits := 11) (z := (1 : Nat)) (Or.inl rfl) (exDsa_1 _) (by decide) (by decide) [7, 1] rfl (by decide)
example (f : Nat → Bool) : Outcome 8 (exDsa f) 7 (randRange 8 8 7 0 [9]) (Obj.Is 8 (9 : Nat)) (fun o => ∃ z, o.Is 8 z) :=
  mem_randRange_partial (M := 11) (z := (1 : Nat)) (Or.inl rfl) (exDsa_1 _) (by decide)
    (exDsa_p _) (by decide) (by decide) (by decide) (by decide) [9] rfl (by decide)
example : rand 8 8 11 [0, 0] (exDsa fun _ => false) = .ub := mem_rand_zeros (r := 8) (n := 8) rfl (by decide) 2 rfl

/-- A number that was negative before stays negative. -/
theorem mem_rand_negative : ∃ s', rand 8 1 4 [9] (exDiv fun _ => false) = .ok (0, s') ∧
    decide ((s'.obj 1).hdr.map Hdr.neg = some true ∧ (s'.obj 1).cells = [some 9]) = true := endsIn_ok (by decide +kernel)

/-- The hypotheses of `mem_dsa_sign_partial` and `mem_dsa_sign_verify` are met. -/
example : ∃ s', dsaSign 8 8 0 1 2 3 5 6 [6] [1] (exDsa fun _ => false) = .ok (0, s') ∧ EndsSame 8 s' (dsaVerify 8 8 0 1 2 4 5 6 [6]) 0 :=
  mem_dsa_sign_verify (Or.inl rfl) (fun _ => rfl) (by decide) (by decide) (by decide) (by decide) (by decide) (by decide) (by decide)
    (by decide) (by decide) (by decide) (by decide) (by decide) (by decide) (by decide) (by decide) (by decide) (by decide)
    (exDsa_p _) (exDsa_q _) (exDsa_g _) (exDsa_x _) (exDsa_y _) (exDsa_r _) (exDsa_s _) (by decide) (by norm_num) (by decide) [6] [1] rfl (by decide)

/-- The signature of [6] is (4, 2); it is accepted for [6] and refused for [7] and so is (1, 2) for [6]. -/
example : (∃ s', dsaSign 8 10 0 1 2 3 8 9 [6] [1] (exDsa fun _ => false) = .ok (0, s') ∧
      decide ((s'.obj 8).cells[0]? = some (some 4) ∧ (s'.obj 9).cells[0]? = some (some 2) ∧ s'.live = 30) = true) ∧
    (∃ s', dsaVerify 8 8 0 1 2 4 5 6 [6] (exDsa fun _ => false) = .ok (0, s') ∧ decide (s'.live = 30) = true) ∧
    (∃ s', dsaVerify 8 8 0 1 2 4 5 6 [7] (exDsa fun _ => false) = .ok (-1, s') ∧ decide (s'.live = 30) = true) ∧
    (∃ s', dsaVerify 8 8 0 1 2 4 7 6 [6] (exDsa fun _ => false) = .ok (-1, s') ∧ decide (s'.live = 30) = true) :=
  ⟨endsIn_ok (by decide +kernel), endsIn_ok (by decide +kernel), endsIn_ok (by decide +kernel), endsIn_ok (by decide +kernel)⟩

/-- The hypotheses of `mem_dsa_verify_lost` and `mem_dsa_sign_lost` are met: [7] is accepted with the signature of [6]. -/
example : EndsSame 8 (exDsa fun k => k == 4) (dsaVerify 8 8 0 1 2 4 5 6 [7]) 0 ∧
    EndsSame 8 (exDsa fun k => k == 2) (dsaSign 8 8 0 1 2 3 5 6 [7] [1]) 0 :=
  ⟨mem_dsa_verify_lost (Or.inl rfl) (by decide) (by decide) (exDsa_q _) (exDsa_s _).shows [7] (by decide) rfl,
    mem_dsa_sign_lost (Or.inl rfl) (by decide) (exDsa_q _) [7] [1] (by decide) rfl⟩

/-- Both other cases of `mem_dsa_verify_partial`: (1, 2) does not satisfy the equation, and (4, 5) has no inverse. -/
example : EndsSame 8 (exDsa fun _ => false) (dsaVerify 8 8 0 1 2 4 7 6 [6]) (-1) ∧ EndsSame 8 (exDsa fun _ => false) (dsaVerify 8 8 0 1 2 4 5 1 [6]) 0 := by
  constructor
  · refine (mem_dsa_verify_partial (P := 11) (Q := 5) (G := (3 : Nat)) (Y := (9 : Nat)) (R := (1 : Nat)) (T := (2 : Nat)) (Or.inl rfl) (fun _ => rfl) (by decide) (by decide)
      (by decide) (by decide) (by decide) (by decide) (exDsa_p _) (exDsa_q _) (exDsa_g _) (exDsa_y _) (exDsa_1 _).shows (exDsa_s _).shows (by decide)
      (by decide) [6]).2 ?_
    rintro (h | h)
    · exact h (by decide)
    · rw [dsa_equation_iff (v := 3) (by decide)] at h
      revert h; decide
  · exact (mem_dsa_verify_partial (P := 11) (Q := 5) (G := (3 : Nat)) (Y := (9 : Nat)) (R := (4 : Nat)) (T := (5 : Nat)) (Or.inl rfl) (fun _ => rfl) (by decide) (by decide)
      (by decide) (by decide) (by decide) (by decide) (exDsa_p _) (exDsa_q _) (exDsa_g _) (exDsa_y _) (exDsa_r _).shows (exDsa_q _) (by decide)
      (by decide) [6]).1 (Or.inl (by decide))

end Verif.Mem
