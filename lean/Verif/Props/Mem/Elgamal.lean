import Verif.Lemmas.Mem.Elgamal
import Verif.Lemmas.Mem.ElgamalAny
import Verif.Spec.MemRsa
import Verif.Props.Mem.Agree
import Verif.Props.Pk.Elgamal
/-!
# C91: ElGamal signatures in memory
-/
namespace Verif.Mem
open Verif.Mpi

section
variable {w : Nat} {s : St} {sp p g d y r t : Nat} {P : Nat} {G D Y : Int}

/-- C91, partial.  Full statement: `cry_elgamal_verify2` accepts exactly the signatures of messages not longer than the modulus that
satisfy the equation, or reports that an allocation failed, and changes nothing.  Proved: when no allocation fails, for components not
negative.  Missing: failing allocations, where it is false (`mem_elgamal_verify2_ub`). -/
theorem mem_elgamal_verify2_partial {R S : Nat} (hw : DigitWidth w) (hs : Plenty s) (hp : p < sp) (hg : g < sp) (hy : y < sp) (hr : r < sp) (ht : t < sp)
    (ap : (s.obj p).Shows w P) (ag : (s.obj g).Shows w G) (ay : (s.obj y).Shows w Y) (ar : (s.obj r).Shows w R) (at' : (s.obj t).Shows w S)
    (hP : 1 < P) (msg : List Byte) :
    ((msg.length ≤ (P.size + 7) / 8 ∧ ElgamalEq P G Y R S (beVal msg)) → EndsSame sp s (elgamalVerify2 w sp p g y r t msg) 0) ∧
    (¬ (msg.length ≤ (P.size + 7) / 8 ∧ ElgamalEq P G Y R S (beVal msg)) → EndsSame sp s (elgamalVerify2 w sp p g y r t msg) (-1)) := by
  obtain ⟨st, s', e, h, hst⟩ := elgamalVerify2_calm hw (K := ctxOf sp s) hs (at_now sp s) hp hg hy hr ht (fun o ho => by rw [ho]; exact ap)
    (fun o ho => by rw [ho]; exact ag) (fun o ho => by rw [ho]; exact ay) (fun o ho => by rw [ho]; exact ar) (fun o ho => by rw [ho]; exact at') hP msg
  have hsame := At.same rfl h
  rcases hst with ⟨rfl, h1⟩ | ⟨rfl, h1⟩
  · exact ⟨fun _ => ⟨s', e, hsame⟩, fun h => absurd h1 h⟩
  · exact ⟨fun h => absurd h h1, fun _ => ⟨s', e, hsame⟩⟩

/-- C91, partial in the same way: `cry_elgamal_verify`.  The two halves of the first bytes of the signature, twice as many as the modulus
has, are the components. -/
theorem mem_elgamal_verify_partial (hw : DigitWidth w) (hs : Plenty s) (hp : p < sp) (hg : g < sp) (hy : y < sp)
    (ap : (s.obj p).Shows w P) (ag : (s.obj g).Shows w G) (ay : (s.obj y).Shows w Y) (hP : 1 < P) {rb sb rest : List Byte} (hr : rb.length = (P.size + 7) / 8)
    (ht : sb.length = (P.size + 7) / 8) (msg : List Byte) :
    ((msg.length ≤ (P.size + 7) / 8 ∧ ElgamalEq P G Y (beVal rb) (beVal sb) (beVal msg)) → EndsSame sp s (elgamalVerify w sp p g y (rb ++ sb ++ rest) msg) 0) ∧
    (¬ (msg.length ≤ (P.size + 7) / 8 ∧ ElgamalEq P G Y (beVal rb) (beVal sb) (beVal msg)) → EndsSame sp s (elgamalVerify w sp p g y (rb ++ sb ++ rest) msg) (-1)) := by
  have hw0 : 0 < w := by have := hw.pos; omega
  have hK : (ctxOf sp s).Calm := hs
  have hlist : ∀ v, v ∈ [sp, sp + 1] ↔ sp ≤ v ∧ v < sp + 2 := by
    intro v; simp only [List.mem_cons, List.not_mem_nil, or_false]; omega
  obtain ⟨s0, e0, h0⟩ := decl_run (at_now sp s) 2
  obtain ⟨s1, e1, h1⟩ := initList_calm hw0 hK h0 hlist (by simp)
  have np : ∀ {L : List Int} {v : Nat} {Q : Obj → Prop}, v < sp → Q (s.obj v) → ∀ o, NV w sp (Now s) L v o → Q o := fun {L v Q} hv hq o ho => by
    rw [NV.lo hv] at ho; rw [show o = s.obj v from ho]; exact hq
  have e2 : countBytes w p s1 = .ok ((P.size + 7) / 8, s1) := countBytes_shows hw (np hp ap _ (h1.objs p (by omega)))
  obtain ⟨s3, e3, h3⟩ := cn_loadBin hw hK h1 rfl (r := sp) (i := 0) rfl (by omega) (le_refl _) rb rfl rfl
  obtain ⟨s4, e4, h4⟩ := cn_loadBin hw hK h3 rfl (r := sp + 1) (i := 1) rfl (by omega) (le_refl _) sb rfl rfl
  have h4 : At (ctxOf sp s) (NV w sp (Now s) [(beVal rb : Int), (beVal sb : Int)]) (sp + 2) s4 := h4
  have n0 := NV.hi (w := w) (sp := sp) (A := Now s) (L := [(beVal rb : Int), (beVal sb : Int)]) (i := 0)
  have n1 := NV.hi (w := w) (sp := sp) (A := Now s) (L := [(beVal rb : Int), (beVal sb : Int)]) (i := 1)
  obtain ⟨st, s5, e5, h5, hst⟩ := elgamalVerify2_calm hw hK h4 (p := p) (g := g) (y := y) (r := sp) (t := sp + 1) (by omega) (by omega) (by omega) (by omega) (by omega)
    (np hp ap) (np hg ag) (np hy ay) (fun o ho => by rw [Nat.add_zero] at n0; rw [n0] at ho; exact ho.shows) (fun o ho => by rw [n1] at ho; exact ho.shows) hP msg
  obtain ⟨s6, e6, h6⟩ := clearList_calm h5 hlist
  have hrun : elgamalVerify w sp p g y (rb ++ sb ++ rest) msg s = .ok (st, s6) := by
    unfold elgamalVerify
    rw [bind_ok e0, chk_ok e1, bind_ok e2]
    have hc : (if (rb ++ sb ++ rest).length < 2 * ((P.size + 7) / 8) then ub else
        chk (loadBin w sp ((rb ++ sb ++ rest).take ((P.size + 7) / 8))) <|
        chk (loadBin w (sp + 1) (((rb ++ sb ++ rest).drop ((P.size + 7) / 8)).take ((P.size + 7) / 8))) <|
        elgamalVerify2 w (sp + 2) p g y sp (sp + 1) msg) s1 = .ok (st, s5) := by
      rw [if_neg (by simp only [List.length_append]; omega), List.append_assoc, ← hr, List.take_left, List.drop_left, show rb.length = sb.length by omega, List.take_left,
        chk_ok e3, chk_ok e4, e5]
    rw [bind_ok hc, bind_ok e6]; rfl
  have hsame := At.same rfl h6
  rcases hst with ⟨rfl, h1⟩ | ⟨rfl, h1⟩
  · exact ⟨fun _ => ⟨s6, hrun, hsame⟩, fun h => absurd h1 h⟩
  · exact ⟨fun h => absurd h h1, fun _ => ⟨s6, hrun, hsame⟩⟩

/-- C91, partial.  Full statement: `cry_elgamal_sign2` returns 0 with a signature made with the secret number of the generator, or -1
if the message is too long, no secret number is coprime to `P - 1`, or an allocation failed.  Proved: when no allocation fails, and all
bytes of the generator reach the top digit and do not make the number 0.  Missing, because false: the number 0 (`mem_elgamal_sign_zero`)
and failing allocations (C70). -/
theorem mem_elgamal_sign2_partial (hw : DigitWidth w) (hs : Plenty s) (hp : p < sp) (hg : g < sp) (hd : d < sp) (hr : r < sp) (ht : t < sp)
    (rd : r ≠ d) (rt : r ≠ t) (ap : (s.obj p).Shows w P) (ag : (s.obj g).Shows w G) (ad : (s.obj d).Shows w D) (ar : ∃ z, (s.obj r).Is w z)
    (at' : ∃ z, (s.obj t).Is w z) (hP : 1 < P) (msg : List Byte) (bss : List (List Byte)) (hb : bss ≠ [])
    (hbs : ∀ bs ∈ bss, bs.length = ((P - 1).size + 7) / 8 ∧ (2 ^ w) ^ (((P - 1).size - 1) / w) ≤ beVal bs ∧ rangeVal (P - 1) bs ≠ 0) :
    ∃ st s', elgamalSign2 w sp p g d r t msg bss s = .ok (st, s') ∧ (∀ v, v < sp → v ≠ r → v ≠ t → s'.obj v = s.obj v) ∧ Balanced sp s s' ∧ s'.fails = s.fails ∧
      ((st = 0 ↔ msg.length ≤ (P.size + 7) / 8 ∧ Nat.gcd (nonce (P - 1) bss) (P - 1) = 1) ∧ (st = 0 ∨ st = -1)) ∧
      (st = 0 → (s'.obj r).Is w (G ^ nonce (P - 1) bss % P) ∧ ∃ S, (s'.obj t).Is w S ∧ 0 ≤ S ∧ S < P - 1 ∧
        nonce (P - 1) bss * S + D * (G ^ nonce (P - 1) bss % P) ≡ beVal msg [ZMOD P - 1]) := by
  obtain ⟨zr, ar⟩ := ar
  obtain ⟨zt, at'⟩ := at'
  obtain ⟨st, s', e, h⟩ := elgamalSign2_calm hw (K := ctxOf sp s) hs (at_now sp s) hp hg hd hr ht rd rt (fun o ho => by rw [ho]; exact ap)
    (fun o ho => by rw [ho]; exact ag) (fun o ho => by rw [ho]; exact ad) (fun o ho => by rw [ho]; exact ⟨zr, V.of_is ar⟩) (fun o ho => by rw [ho]; exact ⟨zt, V.of_is at'⟩)
    hP msg bss hb hbs
  have fr : ∀ {Q1 Q2 : Obj → Prop}, At (ctxOf sp s) (Function.update (Function.update (Now s) r Q1) t Q2) sp s' →
      (∀ v, v < sp → v ≠ r → v ≠ t → s'.obj v = s.obj v) ∧ Balanced sp s s' ∧ s'.fails = s.fails ∧ Q1 (s'.obj r) ∧ Q2 (s'.obj t) := by
    intro Q1 Q2 h
    refine ⟨fun v hv h1 h2 => ?_, balanced_of h, h.orc, ?_, ?_⟩
    · have := h.objs v hv; rwa [Function.update_of_ne h2, Function.update_of_ne h1] at this
    · have := h.objs r hr; rwa [Function.update_of_ne rt, Function.update_self] at this
    · have := h.objs t ht; rwa [Function.update_self] at this
  rcases h with ⟨hl, rfl, h⟩ | ⟨hl, hgc, rfl, h⟩ | ⟨hl, hgc, rfl, S, h, h0, h1, h2⟩
  · exact ⟨-1, s', e, fun v hv _ _ => h.objs v hv, balanced_of h, h.orc, ⟨⟨fun h => absurd h (by decide), fun h => absurd h.1 (by omega)⟩, Or.inr rfl⟩, fun h => absurd h (by decide)⟩
  · obtain ⟨f1, f2, f3, -, -⟩ := fr h
    exact ⟨-1, s', e, f1, f2, f3, ⟨⟨fun h => absurd h (by decide), fun h => absurd h.2 hgc⟩, Or.inr rfl⟩, fun h => absurd h (by decide)⟩
  · obtain ⟨f1, f2, f3, f4, f5⟩ := fr h
    exact ⟨0, s', e, f1, f2, f3, ⟨⟨fun _ => ⟨hl, hgc⟩, fun _ => rfl⟩, Or.inl rfl⟩, fun _ => ⟨f4.is, S, f5.is, h0, h1, h2⟩⟩

/-- C91, partial in the same way: `cry_elgamal_sign` writes both components with as many bytes as the modulus has, or nothing. -/
theorem mem_elgamal_sign_partial (hw : DigitWidth w) (hs : Plenty s) (hp : p < sp) (hg : g < sp) (hd : d < sp)
    (ap : (s.obj p).Shows w P) (ag : (s.obj g).Shows w G) (ad : (s.obj d).Shows w D) (hP : 1 < P) (msg : List Byte) (bss : List (List Byte)) (hb : bss ≠ [])
    (hbs : ∀ bs ∈ bss, bs.length = ((P - 1).size + 7) / 8 ∧ (2 ^ w) ^ (((P - 1).size - 1) / w) ≤ beVal bs ∧ rangeVal (P - 1) bs ≠ 0)
    (b : Buf) (hlen : 2 * ((P.size + 7) / 8) ≤ b.length) :
    (¬ (msg.length ≤ (P.size + 7) / 8 ∧ Nat.gcd (nonce (P - 1) bss) (P - 1) = 1) →
      ∃ s', elgamalSign w sp p g d b msg bss s = .ok ((-1, b), s') ∧ (∀ v, v < sp → s'.obj v = s.obj v) ∧ s'.live = s.live ∧ s'.fails = s.fails) ∧
    (msg.length ≤ (P.size + 7) / 8 ∧ Nat.gcd (nonce (P - 1) bss) (P - 1) = 1 →
      ∃ s' rb sb, elgamalSign w sp p g d b msg bss s = .ok ((0, (rb ++ sb).map some ++ b.drop (2 * ((P.size + 7) / 8))), s') ∧
        (∀ v, v < sp → s'.obj v = s.obj v) ∧ s'.live = s.live ∧ s'.fails = s.fails ∧
        rb.length = (P.size + 7) / 8 ∧ sb.length = (P.size + 7) / 8 ∧ (beVal rb : Int) = G ^ nonce (P - 1) bss % P ∧ beVal sb < P - 1 ∧
        nonce (P - 1) bss * (beVal sb : Int) + D * (beVal rb : Int) ≡ beVal msg [ZMOD P - 1]) := by
  have hw0 : 0 < w := by have := hw.pos; omega
  have hK : (ctxOf sp s).Calm := hs
  have hlist : ∀ v, v ∈ [sp, sp + 1] ↔ sp ≤ v ∧ v < sp + 2 := by
    intro v; simp only [List.mem_cons, List.not_mem_nil, or_false]; omega
  obtain ⟨s0, e0, h0⟩ := decl_run (at_now sp s) 2
  obtain ⟨s1, e1, h1⟩ := initList_calm hw0 hK h0 hlist (by simp)
  have np : ∀ {L : List Int} {v : Nat} {Q : Obj → Prop}, v < sp → Q (s.obj v) → ∀ o, NV w sp (Now s) L v o → Q o := fun {L v Q} hv hq o ho => by
    rw [NV.lo hv] at ho; rw [show o = s.obj v from ho]; exact hq
  have na : ∀ {L : List Int} (i : Nat), ∀ o, NV w sp (Now s) L (sp + i) o → Any w o := fun i o ho => by rw [NV.hi] at ho; exact ho.any
  have two : ∀ {R S : Int} {s' : St}, At (ctxOf sp s) (Function.update (Function.update (NV w sp (Now s) (List.replicate 2 0)) sp (V w R 0)) (sp + 1) (V w S 0)) (sp + 2) s' →
      At (ctxOf sp s) (NV w sp (Now s) [R, S]) (sp + 2) s' := by
    intro R S s' h
    refine h.le fun v hv o ho => ?_
    by_cases h1 : v = sp + 1
    · subst h1; rw [Function.update_self] at ho; rw [NV.hi]; exact ho
    · rw [Function.update_of_ne h1] at ho
      exact Nums.set (Q := fun z => V w z 0) (i := 0) (L := [0, S]) (z := R) (S := sp + 2) (by simp) v hv o (by
        rw [Nat.add_zero]
        by_cases h0 : v = sp
        · subst h0; rw [Function.update_self] at ho ⊢; exact ho
        · rw [Function.update_of_ne h0] at ho ⊢
          rw [show NV w sp (Now s) (List.replicate 2 0) v = Nums (fun z => V w z 0) sp (Now s) [0, 0] v from rfl] at ho
          rw [Nums.lo (by omega)] at ho ⊢
          exact ho)
  obtain ⟨st, s2, e2, h2⟩ := elgamalSign2_calm hw hK h1 (p := p) (g := g) (d := d) (r := sp) (t := sp + 1) (by omega) (by omega) (by omega) (by omega) (by omega) (by omega) (by omega)
    (np hp ap) (np hg ag) (np hd ad) (na 0) (na 1) hP msg bss hb hbs
  have unit : ∀ {s3 : St} {x : Int × Buf}, (if st = 0 then do
        let siz ← countBytes w p
        let r ← storeBin w sp b 0 siz true
        if r.1 = 0 then storeBin w (sp + 1) r.2 siz siz true else pure r
      else pure (st, b) : M (Int × Buf)) s2 = .ok (x, s2) → clearList [sp, sp + 1] s2 = .ok ((), s3) → elgamalSign w sp p g d b msg bss s = .ok (x, s3) := by
    intro s3 x hx hc
    unfold elgamalSign
    rw [bind_ok e0, bind_ok e1, if_neg (by decide), bind_ok e2, bind_ok hx, bind_ok hc]; rfl
  constructor
  · intro hno
    obtain rfl : st = -1 := by
      rcases h2 with ⟨-, h, -⟩ | ⟨-, -, h, -⟩ | ⟨h1, h2, -⟩
      · exact h
      · exact h
      · exact absurd ⟨h1, h2⟩ hno
    have hclr : ∃ s3, clearList [sp, sp + 1] s2 = .ok ((), s3) ∧ At (ctxOf sp s) (Now s) sp s3 := by
      rcases h2 with ⟨-, -, h⟩ | ⟨-, -, -, h⟩ | ⟨-, -, h, -⟩
      · exact clearList_calm h hlist
      · have hv := h.objs (sp + 1) (by omega)
        rw [Function.update_self] at hv
        obtain ⟨S, hS⟩ := hv
        exact clearList_calm (two (S := S) ⟨fun v hv => by
          by_cases hv1 : v = sp + 1
          · subst hv1; rw [Function.update_self]; exact hS
          · have := h.objs v hv; rw [Function.update_of_ne hv1] at this ⊢; exact this, h.bal, h.orc, h.tick⟩) hlist
      · cases h
    obtain ⟨s3, e3, h3⟩ := hclr
    obtain ⟨f1, f2⟩ := At.same rfl h3
    exact ⟨s3, unit rfl e3, f1, f2, h3.orc⟩
  · rintro ⟨hl, hgc⟩
    rcases h2 with ⟨h, -⟩ | ⟨-, h, -⟩ | ⟨-, -, rfl, S, h, h0, h1, h2⟩
    · omega
    · exact absurd hgc h
    have h' := two h
    have n0 := h'.objs sp (by omega)
    have n1 := h'.objs (sp + 1) (by omega)
    have q0 := NV.hi (w := w) (sp := sp) (A := Now s) (L := [G ^ nonce (P - 1) bss % P, S]) (i := 0)
    have q1 := NV.hi (w := w) (sp := sp) (A := Now s) (L := [G ^ nonce (P - 1) bss % P, S]) (i := 1)
    rw [Nat.add_zero] at q0
    rw [q0] at n0; rw [q1] at n1
    have hsz : P < 256 ^ ((P.size + 7) / 8) := by
      refine lt_of_lt_of_le (Nat.lt_size_self P) ?_
      rw [show (256 : Nat) = 2 ^ 8 from rfl, ← pow_mul]
      exact Nat.pow_le_pow_right (by decide) (by omega)
    generalize hL : (P.size + 7) / 8 = L at *
    have r0 : 0 ≤ G ^ nonce (P - 1) bss % (P : Int) := Int.emod_nonneg _ (by omega)
    have r1 : G ^ nonce (P - 1) bss % (P : Int) < P := Int.emod_lt_of_pos _ (by omega)
    have n0 : (s2.obj sp).Shows w (G ^ nonce (P - 1) bss % P) := n0.shows
    have n1 : (s2.obj (sp + 1)).Shows w S := n1.shows
    obtain ⟨rb, c1, c2, c3⟩ := mem_storeBin (p := 0) (bufsiz := L) hw n0 true (b := b) (by omega) (by simp; omega)
    rw [if_pos rfl] at c3
    rw [List.take_zero, List.nil_append, Nat.zero_add, c3] at c1
    obtain ⟨sb, d1, d2, d3⟩ := mem_storeBin (p := L) (bufsiz := L) hw n1 true (b := rb.map some ++ b.drop L) (by omega) (by simp; omega)
    rw [if_pos rfl] at d3
    rw [List.take_left' (by simp [c3]), List.drop_append, List.drop_of_length_le (l := rb.map some) (by rw [List.length_map]; omega), List.nil_append, List.length_map, List.drop_drop, c3, d3, show L + (L + L - L) = 2 * L by omega] at d1
    obtain ⟨s3, e3, h3⟩ := clearList_calm h' hlist
    obtain ⟨f1, f2⟩ := At.same rfl h3
    refine ⟨s3, rb, sb, unit ?_ e3, f1, f2, h3.orc, c3, d3, by omega, by omega, ?_⟩
    · rw [if_pos rfl, bind_ok (hL ▸ countBytes_shows hw (np hp ap _ (h'.objs p (by omega)))), bind_ok c1, if_pos rfl, d1, List.map_append]
    · rw [show (beVal rb : Int) = G ^ nonce (P - 1) bss % P by omega, show (beVal sb : Int) = S by omega]
      exact h2

/-- C91: a signature made in memory is accepted with the public key, by both parties' functions on bytes. -/
theorem mem_elgamal_sign_verify {G D : Nat} {sB : St} {spB pB gB yB : Nat} (hw : DigitWidth w) (hs : Plenty s) (hsB : Plenty sB) (hp : p < sp) (hg : g < sp) (hd : d < sp)
    (hpB : pB < spB) (hgB : gB < spB) (hyB : yB < spB) (ap : (s.obj p).Shows w P) (ag : (s.obj g).Shows w G) (ad : (s.obj d).Shows w D)
    (bp : (sB.obj pB).Shows w P) (bg : (sB.obj gB).Shows w G) (bY : (sB.obj yB).Shows w ((G ^ D % P : Nat) : Int)) (hP : P.Prime) (hG : ¬ P ∣ G)
    (msg : List Byte) (hl : msg.length ≤ (P.size + 7) / 8) (bss : List (List Byte)) (hb : bss ≠ [])
    (hbs : ∀ bs ∈ bss, bs.length = ((P - 1).size + 7) / 8 ∧ (2 ^ w) ^ (((P - 1).size - 1) / w) ≤ beVal bs ∧ rangeVal (P - 1) bs ≠ 0)
    (hgc : Nat.gcd (nonce (P - 1) bss) (P - 1) = 1) (b : Buf) (hlen : b.length = 2 * ((P.size + 7) / 8)) :
    ∃ s' sig, elgamalSign w sp p g d b msg bss s = .ok ((0, sig.map some), s') ∧ EndsSame spB sB (elgamalVerify w spB pB gB yB sig msg) 0 := by
  obtain ⟨s', rb, sb, e, -, -, -, l1, l2, v1, v2, v3⟩ := (mem_elgamal_sign_partial hw hs hp hg hd ap ag ad hP.one_lt msg bss hb hbs b (by omega)).2 ⟨hl, hgc⟩
  rw [List.drop_of_length_le (by omega), List.append_nil] at e
  refine ⟨s', rb ++ sb, e, ?_⟩
  have := (mem_elgamal_verify_partial (rest := []) hw hsB hpB hgB hyB bp bg bY hP.one_lt l1 l2 msg).1 ⟨hl, ?_⟩
  · rwa [List.append_nil] at this
  · have v1' : beVal rb = G ^ nonce (P - 1) bss % P := by exact_mod_cast v1
    have hP1 := hP.one_lt
    rw [show (P : Int) - 1 = ((P - 1 : Nat) : Int) by omega] at v3
    have v4 : nonce (P - 1) bss * beVal sb + D * beVal rb ≡ beVal msg [MOD P - 1] := by
      rw [← Int.natCast_modEq_iff]; push_cast; exact v3
    rw [v1'] at v4
    have heq : (G ^ D % P) ^ (G ^ nonce (P - 1) bss % P) * (G ^ nonce (P - 1) bss % P) ^ beVal sb ≡ G ^ beVal msg [MOD P] := by
      have a : (G ^ D % P) ^ (G ^ nonce (P - 1) bss % P) ≡ G ^ (D * (G ^ nonce (P - 1) bss % P)) [MOD P] := by
        rw [pow_mul]; exact (Nat.mod_modEq _ _).pow _
      have b : (G ^ nonce (P - 1) bss % P) ^ beVal sb ≡ G ^ (nonce (P - 1) bss * beVal sb) [MOD P] := by
        rw [pow_mul]; exact (Nat.mod_modEq _ _).pow _
      refine (a.mul b).trans ?_
      rw [← pow_add, Nat.add_comm]
      exact Dsa.pow_congr (Elgamal.pow_unit hP hG) v4
    unfold ElgamalEq
    rw [v1', ← Int.natCast_pow, ← Int.natCast_pow, ← Int.natCast_mul, ← Int.natCast_pow]
    exact Int.natCast_modEq_iff.2 heq

/-- C91, partial.  Full statement: as for `mem_elgamal_verify2_partial`.  Proved: whichever allocations fail, when neither component nor
the message is zero.  The call accepts only what satisfies the equation; a refusal means that the equation does not hold or that a request
failed; otherwise the behaviour is undefined, and then a request fails.  Missing: exponents that are 0. -/
theorem mem_elgamal_verify2_any_partial {R S : Nat} (hw : DigitWidth w) (hp : p < sp) (hg : g < sp) (hy : y < sp) (hr : r < sp) (ht : t < sp)
    (ap : (s.obj p).Shows w P) (ag : (s.obj g).Shows w G) (ay : (s.obj y).Shows w Y) (ar : (s.obj r).Shows w R) (at' : (s.obj t).Shows w S)
    (hP : 1 < P) (hR : 0 < R) (hS : 0 < S) (msg : List Byte) (hm : 0 < beVal msg) :
    (elgamalVerify2 w sp p g y r t msg s = .ub ∧ SomeFails s) ∨
    ∃ st s', elgamalVerify2 w sp p g y r t msg s = .ok (st, s') ∧ SameBut sp 0 s s' ∧
      ((st = 0 ∧ msg.length ≤ (P.size + 7) / 8 ∧ ElgamalEq P G Y R S (beVal msg)) ∨
       (st = -1 ∧ (¬ (msg.length ≤ (P.size + 7) / 8 ∧ ElgamalEq P G Y R S (beVal msg)) ∨ Failed s s'))) := by
  rcases elgamalVerify2_any hw (at_now sp s) hp hg hy hr ht (fun o ho => by rw [ho]; exact ap)
    (fun o ho => by rw [ho]; exact ag) (fun o ho => by rw [ho]; exact ay) (fun o ho => by rw [ho]; exact ar) (fun o ho => by rw [ho]; exact at') hP hR hS msg hm
    with h | ⟨st, s', e, h, r⟩
  · exact Or.inl h
  · exact Or.inr ⟨st, s', e, ⟨fun v hv => h.objs v hv, by rw [(h.same rfl).2]; ring, h.orc⟩, r⟩

/-- C91, partial in the same way: `cry_elgamal_verify` whichever allocations fail. -/
theorem mem_elgamal_verify_any_partial (hw : DigitWidth w) (hp : p < sp) (hg : g < sp) (hy : y < sp)
    (ap : (s.obj p).Shows w P) (ag : (s.obj g).Shows w G) (ay : (s.obj y).Shows w Y) (hP : 1 < P) {rb sb rest : List Byte} (hr : rb.length = (P.size + 7) / 8)
    (ht : sb.length = (P.size + 7) / 8) (hR : 0 < beVal rb) (hS : 0 < beVal sb) (msg : List Byte) (hm : 0 < beVal msg) :
    (elgamalVerify w sp p g y (rb ++ sb ++ rest) msg s = .ub ∧ SomeFails s) ∨
    ∃ st s', elgamalVerify w sp p g y (rb ++ sb ++ rest) msg s = .ok (st, s') ∧ SameBut sp 0 s s' ∧
      ((st = 0 ∧ msg.length ≤ (P.size + 7) / 8 ∧ ElgamalEq P G Y (beVal rb) (beVal sb) (beVal msg)) ∨
       (st = -1 ∧ (¬ (msg.length ≤ (P.size + 7) / 8 ∧ ElgamalEq P G Y (beVal rb) (beVal sb) (beVal msg)) ∨ Failed s s'))) := by
  rcases elgamalVerify_any hw (at_now sp s) hp hg hy (fun o ho => by rw [ho]; exact ap) (fun o ho => by rw [ho]; exact ag) (fun o ho => by rw [ho]; exact ay)
    hP hr ht hR hS (rest := rest) msg hm with h | ⟨st, s', e, h, r⟩
  · exact Or.inl h
  · exact Or.inr ⟨st, s', e, ⟨fun v hv => h.objs v hv, by rw [(h.same rfl).2]; ring, h.orc⟩, r⟩

/-- C91: `cry_elgamal_init`, whichever allocations fail. -/
theorem mem_elgamal_init (hw : 0 < w) (hn : [p, d, g, y].Nodup) (hs : ∀ a ∈ [p, d, g, y], a < sp) (h0 : ∀ a ∈ [p, d, g, y], (s.obj a).owns = 0) :
    ∃ st s', elgamalInit p d g y s = .ok (st, s') ∧ (∀ v, v < sp → v ∉ [p, d, g, y] → s'.obj v = s.obj v) ∧ Balanced sp s s' ∧
      ((st = 0 ∧ ∀ a ∈ [p, d, g, y], (s'.obj a).Is w 0) ∨ (st = -1 ∧ Failed s s' ∧ ∀ a ∈ [p, d, g, y], (s'.obj a).owns = 0)) :=
  mem_initList hw hn hs h0

/-- Clearing objects and then the bytes of the context. -/
theorem clear_wipe {as : List Nat} (hn : as.Nodup) (hs : ∀ a ∈ as, a < sp) (h0 : ∀ a ∈ as, ∃ z, (s.obj a).Is w z) :
    ∃ s', (do clearList as; wipe as) s = .ok ((), s') ∧ (∀ v, v < sp → v ∉ as → s'.obj v = s.obj v) ∧ Balanced sp s s' ∧
      ∀ a ∈ as, s'.obj a = ⟨some ⟨false, 0, 0⟩, .null⟩ := by
  obtain ⟨s1, e1, h1, f1⟩ := clearList_able (w := w) as (Now s) s (at_now sp s) (fun a ha => ⟨hs a ha, Or.inl (h0 a ha)⟩) hn
  have hc : ∀ a ∈ as, s1.obj a = Obj.cleared := fun a ha => by
    have := h1.objs a (hs a ha); unfold Sets at this; rwa [if_pos ha] at this
  obtain ⟨s2, e2, f2, l2, c2⟩ := wipe_run as s1 (fun a ha => by rw [hc a ha]; rfl)
  refine ⟨s2, (bind_ok e1).trans e2, fun v _ hm => by rw [f2 v hm, f1 v hm], ?_, c2⟩
  have hb := balanced_of h1
  unfold Balanced at hb ⊢
  rw [l2, ← hb]
  have : ∀ v, (s2.obj v).owns = (s1.obj v).owns := fun v => by
    by_cases hm : v ∈ as
    · rw [c2 v hm, hc v hm]; rfl
    · rw [f2 v hm]
  simp only [this]

/-- C91: `cry_elgamal_clear` gives everything back that the context owns, and leaves zeros. -/
theorem mem_elgamal_clear (hn : [p, d, g, y].Nodup) (hs : ∀ a ∈ [p, d, g, y], a < sp) (h0 : ∀ a ∈ [p, d, g, y], ∃ z, (s.obj a).Is w z) :
    ∃ s', elgamalClear p d g y s = .ok ((), s') ∧ (∀ v, v < sp → v ∉ [p, d, g, y] → s'.obj v = s.obj v) ∧ Balanced sp s s' ∧
      ∀ a ∈ [p, d, g, y], s'.obj a = ⟨some ⟨false, 0, 0⟩, .null⟩ :=
  clear_wipe hn hs h0

end

/-! ### Cases -/

/-- The toy key p = 23, g = 5, d = 6, y = 5⁶ = 8. -/
def exElg (f : Nat → Bool) : St :=
  ⟨fun v => match [23, 5, 6, 8][v]? with
    | some n => exNum n
    | none => Obj.fresh, f, 0, 4⟩

theorem exElg_at (f : Nat → Bool) (v n : Nat) (h : [23, 5, 6, 8][v]? = some n) (h0 : 0 < n) (h1 : n < 256) : ((exElg f).obj v).Is 8 n := by
  have : (exElg f).obj v = exNum n := by
    show (match [23, 5, 6, 8][v]? with
    | some n => exNum n
    | none => Obj.fresh) = _
    rw [h]
  rw [this]; exact exNum_is (by omega) h1

/-- The bytes 18 and 19 are drawn: 18 is even, 19 is coprime to 22; the message is [10]. -/
example : ∃ s' sig, elgamalSign 8 4 0 1 2 [none, none] [10] [[18], [19]] (exElg fun _ => false) = .ok ((0, sig.map some), s') ∧
    EndsSame 4 (exElg fun _ => false) (elgamalVerify 8 4 0 1 3 sig [10]) 0 :=
  mem_elgamal_sign_verify (P := 23) (G := 5) (D := 6) (Or.inl rfl) (fun _ => rfl) (fun _ => rfl) (by decide) (by decide) (by decide) (by decide) (by decide) (by decide)
    (exElg_at _ 0 23 rfl (by decide) (by decide)).shows (exElg_at _ 1 5 rfl (by decide) (by decide)).shows (exElg_at _ 2 6 rfl (by decide) (by decide)).shows
    (exElg_at _ 0 23 rfl (by decide) (by decide)).shows (exElg_at _ 1 5 rfl (by decide) (by decide)).shows (exElg_at _ 3 8 rfl (by decide) (by decide)).shows
    (by norm_num) (by decide) [10] (by decide) [[18], [19]] (by decide) (by decide) (by decide) _ (by decide)

/-- What comes out: the secret number is 19, and r = 5¹⁹ = 7. -/
example : nonce 22 [[18], [19]] = 19 ∧ 5 ^ 19 % 23 = 7 ∧ (∃ s', elgamalSign2 8 6 0 1 2 4 5 [10] [[18], [19]]
      ⟨fun v => if v < 4 then (exElg fun _ => false).obj v else exNum 1, fun _ => false, 0, 6⟩ = .ok (0, s') ∧
        decide ((s'.obj 4).cells[0]? = some (some 7) ∧ s'.live = 6) = true) :=
  ⟨by decide, by decide, endsIn_ok (by decide +kernel)⟩

/-- Too long a message; and the only number drawn is even. -/
example : (∃ s', elgamalSign 8 4 0 1 2 [none, none] [1, 2] [[19]] (exElg fun _ => false) = .ok ((-1, [none, none]), s') ∧ s'.live = (exElg fun _ => false).live) ∧
    ∃ s', elgamalSign 8 4 0 1 2 [none, none] [1] [[18]] (exElg fun _ => false) = .ok ((-1, [none, none]), s') ∧ s'.live = (exElg fun _ => false).live := by
  have h := fun msg bs hb hm => (mem_elgamal_sign_partial (w := 8) (s := exElg fun _ => false) (sp := 4) (p := 0) (g := 1) (d := 2) (P := 23) (G := (5 : Nat)) (D := (6 : Nat)) (Or.inl rfl) (fun _ => rfl) (by decide) (by decide) (by decide)
    (exElg_at _ 0 23 rfl (by decide) (by decide)).shows (exElg_at _ 1 5 rfl (by decide) (by decide)).shows (exElg_at _ 2 6 rfl (by decide) (by decide)).shows (by decide)
    msg [bs] (by simp) hb [none, none] (by decide)).1 hm
  constructor
  · obtain ⟨s', e, -, l, -⟩ := h [1, 2] [19] (by decide) (by decide)
    exact ⟨s', e, l⟩
  · obtain ⟨s', e, -, l, -⟩ := h [1] [18] (by decide) (by decide)
    exact ⟨s', e, l⟩

/-- (8, 0) is refused for [3]; (0, 0) is accepted for the empty message. -/
example : EndsSame 4 (exElg fun _ => false) (elgamalVerify 8 4 0 1 3 [8, 0] [3]) (-1) ∧ EndsSame 4 (exElg fun _ => false) (elgamalVerify 8 4 0 1 3 [0, 0, 9] []) 0 := by
  have h := fun a b rest msg => mem_elgamal_verify_partial (w := 8) (s := exElg fun _ => false) (sp := 4) (p := 0) (g := 1) (y := 3) (P := 23) (G := (5 : Nat)) (Y := (8 : Nat)) (Or.inl rfl) (fun _ => rfl) (by decide) (by decide) (by decide)
    (exElg_at _ 0 23 rfl (by decide) (by decide)).shows (exElg_at _ 1 5 rfl (by decide) (by decide)).shows (exElg_at _ 3 8 rfl (by decide) (by decide)).shows (by decide)
    (rb := [a]) (sb := [b]) (rest := rest) rfl rfl msg
  refine ⟨(h 8 0 [] [3]).2 ?_, (h 0 0 [9] []).1 ?_⟩
  · rintro ⟨-, h⟩; unfold ElgamalEq at h; revert h; decide
  · refine ⟨by decide, ?_⟩; unfold ElgamalEq; decide

/-- C91, where it fails: the generator delivers 22 = p - 1, the secret number is 0, and the greatest common divisor of 0 and p - 1
reads a digit that was never written. -/
theorem mem_elgamal_sign_zero : isUb (elgamalSign2 8 4 0 1 2 3 1 [10] [[22]] (exElg fun _ => false)) = true := by decide +kernel

/-- C91, where it fails: the two locals of a verification are allocated and the next request fails. -/
theorem mem_elgamal_verify2_ub : isUb (elgamalVerify2 8 4 0 1 3 1 2 [10] (exElg fun k => k == 2)) = true := by decide +kernel

/-- Every pattern of failing requests, for a good signature and for a wrong one. -/
example (f : Nat → Bool) : (elgamalVerify 8 4 0 1 3 [7, 18] [10] (exElg f) = .ub ∧ SomeFails (exElg f)) ∨
    ∃ st s', elgamalVerify 8 4 0 1 3 [7, 18] [10] (exElg f) = .ok (st, s') ∧ SameBut 4 0 (exElg f) s' ∧ (st = 0 ∨ Failed (exElg f) s') := by
  have := mem_elgamal_verify_any_partial (w := 8) (s := exElg f) (sp := 4) (p := 0) (g := 1) (y := 3) (P := 23) (G := (5 : Nat)) (Y := (8 : Nat)) (Or.inl rfl) (by decide) (by decide) (by decide)
    (exElg_at _ 0 23 rfl (by decide) (by decide)).shows (exElg_at _ 1 5 rfl (by decide) (by decide)).shows (exElg_at _ 3 8 rfl (by decide) (by decide)).shows (by decide)
    (rb := [7]) (sb := [18]) (rest := []) rfl rfl (by decide) (by decide) [10] (by decide)
  have hq : ([10] : List Byte).length ≤ (Nat.size 23 + 7) / 8 ∧ ElgamalEq 23 (5 : Nat) (8 : Nat) (beVal [7]) (beVal [18]) (beVal [10]) := by
    refine ⟨by decide, ?_⟩; unfold ElgamalEq; decide
  rcases this with h | ⟨st, s', e, h, r⟩
  · exact Or.inl h
  · refine Or.inr ⟨st, s', e, h, ?_⟩
    rcases r with r | ⟨-, r | r⟩
    · exact Or.inl r.1
    · exact absurd hq r
    · exact Or.inr r

example (f : Nat → Bool) : (elgamalVerify2 8 4 0 1 3 1 2 [10] (exElg f) = .ub ∧ SomeFails (exElg f)) ∨
    ∃ s', elgamalVerify2 8 4 0 1 3 1 2 [10] (exElg f) = .ok (-1, s') ∧ SameBut 4 0 (exElg f) s' := by
  have := mem_elgamal_verify2_any_partial (w := 8) (s := exElg f) (sp := 4) (p := 0) (g := 1) (y := 3) (r := 1) (t := 2) (P := 23) (G := (5 : Nat)) (Y := (8 : Nat)) (R := 5) (S := 6)
    (Or.inl rfl) (by decide) (by decide) (by decide) (by decide) (by decide)
    (exElg_at _ 0 23 rfl (by decide) (by decide)).shows (exElg_at _ 1 5 rfl (by decide) (by decide)).shows (exElg_at _ 3 8 rfl (by decide) (by decide)).shows
    (exElg_at _ 1 5 rfl (by decide) (by decide)).shows (exElg_at _ 2 6 rfl (by decide) (by decide)).shows (by decide) (by decide) (by decide) [10] (by decide)
  rcases this with h | ⟨st, s', e, h, r⟩
  · exact Or.inl h
  · rcases r with ⟨-, -, r⟩ | ⟨rfl, -⟩
    · unfold ElgamalEq at r; exact absurd r (by decide)
    · exact Or.inr ⟨s', e, h⟩

/-- Other requests that fail are reported. -/
example : (∃ s', elgamalVerify2 8 4 0 1 3 1 2 [10] (exElg fun k => k == 1) = .ok (-1, s') ∧ decide (s'.live = 4) = true) ∧
    (∃ s', elgamalVerify2 8 4 0 1 3 1 2 [10] (exElg fun k => k == 3) = .ok (-1, s') ∧ decide (s'.live = 4) = true) :=
  ⟨endsIn_ok (by decide +kernel), endsIn_ok (by decide +kernel)⟩

example (f : Nat → Bool) : ∃ st s', elgamalInit 0 1 2 3 (exFresh f) = .ok (st, s') ∧ ((st = 0 ∧ (s'.obj 3).Is 8 0) ∨ (st = -1 ∧ Failed (exFresh f) s' ∧ (s'.obj 0).owns = 0)) := by
  obtain ⟨st, s', e, -, -, ⟨h, h1⟩ | ⟨h, h1, h2⟩⟩ := mem_elgamal_init (w := 8) (sp := 4) (p := 0) (d := 1) (g := 2) (y := 3) (s := exFresh f) (by decide) (by decide) (by decide) (fun _ _ => rfl)
  · exact ⟨st, s', e, Or.inl ⟨h, h1 3 (by simp)⟩⟩
  · exact ⟨st, s', e, Or.inr ⟨h, h1, h2 0 (by simp)⟩⟩

example (f : Nat → Bool) : ∃ s', elgamalClear 0 2 1 3 (exElg f) = .ok ((), s') ∧ Balanced 4 (exElg f) s' ∧ (s'.obj 2).owns = 0 := by
  obtain ⟨s', e, -, h, c⟩ := mem_elgamal_clear (w := 8) (sp := 4) (p := 0) (d := 2) (g := 1) (y := 3) (s := exElg f) (by decide) (by decide) (by
    intro a ha
    simp only [List.mem_cons, List.not_mem_nil, or_false] at ha
    rcases ha with rfl | rfl | rfl | rfl
    · exact ⟨_, exElg_at _ 0 23 rfl (by decide) (by decide)⟩
    · exact ⟨_, exElg_at _ 2 6 rfl (by decide) (by decide)⟩
    · exact ⟨_, exElg_at _ 1 5 rfl (by decide) (by decide)⟩
    · exact ⟨_, exElg_at _ 3 8 rfl (by decide) (by decide)⟩)
  exact ⟨s', e, h, by rw [c 2 (by simp)]; rfl⟩

end Verif.Mem
