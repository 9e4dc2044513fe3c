import Verif.Lemmas.Ram.Ctr
import Verif.Props.Ram.Cbc
/-!
# C81: CTR on buffers in memory
-/
namespace Verif.Ram
open Verif.Modes (xorB encodeBE beVal ctrStream ctrBlocks xorB_length xorB_comm toyE ctrStream_length encodeBE_length
  ctrBlocks_flatten_length)

variable {E : List Byte → List Byte} {c : Nat}

/-- C81: input and output in different places that do not overlap.  Exactly the output and the new counter are written. -/
theorem ram_ctr_out (hE : ∀ b, b.length = c → (E b).length = c) (hc : 2 ≤ c) (R : Ram) (ctx buf d s len : Nat) (hne : s ≠ d)
    (ho : AllOwned R [(ctx, c), (s, len), (d, len), (buf, c)])
    (ha : AllApart [(ctx, c), (buf, c), (s, len), (d, len)]) :
    ∃ R', ctrCrypt E c ctx buf R d s len = some R' ∧
      Wrote R R' [(d, xorB (R.bytes s len) (ctrStream E c (beVal (R.bytes ctx c)) ((len + c - 1) / c))),
        (ctx, encodeBE c (beVal (R.bytes ctx c) + (len + c - 1) / c))] [(buf, c)] := by
  simp only [AllOwned, List.mem_cons, List.not_mem_nil, or_false, forall_eq_or_imp, forall_eq] at ho
  simp only [AllApart, List.pairwise_cons, List.mem_cons, List.not_mem_nil, or_false, forall_eq_or_imp, forall_eq] at ha
  obtain ⟨o1, o2, o3, o4⟩ := ho
  obtain ⟨⟨a1, a2, a3⟩, ⟨a4, a5⟩, a6, -⟩ := ha
  have hl : (R.bytes s len).length = len := bytes_length _ _
  have hv : R.bytes ctx c = encodeBE c (beVal (R.bytes ctx c)) := by
    have := Modes.encodeBE_beVal (R.bytes ctx c)
    rw [bytes_length] at this
    exact this.symm
  unfold ctrCrypt
  rw [if_pos hne]
  have := ctrOut_ram (src := R.bytes s len) (d := d) (s := s) hE hc o1 (by rwa [hl]) (by rwa [hl]) o4
    (by rwa [hl]) (by rwa [hl]) a1 (by rwa [hl]) (by rwa [hl]) (by rwa [hl]) hv (by rw [hl])
  rwa [hl] at this

/-- C81 in place (with the restriction to counters of 16 bytes): exactly the output and the new counter are written. -/
theorem ram_ctr_in_partial (hE : ∀ b, b.length = 16 → (E b).length = 16) (R : Ram) (ctx buf d len : Nat)
    (ho : AllOwned R [(ctx, 16), (d, len), (buf, 64)]) (ha : AllApart [(ctx, 16), (buf, 64), (d, len)]) :
    ∃ R', ctrCrypt E 16 ctx buf R d d len = some R' ∧
      Wrote R R' [(d, xorB (R.bytes d len) (ctrStream E 16 (beVal (R.bytes ctx 16)) ((len + 15) / 16))),
        (ctx, encodeBE 16 (beVal (R.bytes ctx 16) + (len + 15) / 16))] [(buf, 64)] := by
  simp only [AllOwned, List.mem_cons, List.not_mem_nil, or_false, forall_eq_or_imp, forall_eq] at ho
  simp only [AllApart, List.pairwise_cons, List.mem_cons, List.not_mem_nil, or_false, forall_eq_or_imp, forall_eq] at ha
  obtain ⟨o1, o2, o3⟩ := ho
  obtain ⟨⟨a1, a2⟩, a3, -⟩ := ha
  have hl : (R.bytes d len).length = len := bytes_length _ _
  have hv : R.bytes ctx 16 = encodeBE 16 (beVal (R.bytes ctx 16)) := by
    have := Modes.encodeBE_beVal (R.bytes ctx 16)
    rw [bytes_length] at this
    exact this.symm
  unfold ctrCrypt
  rw [if_neg (by simp)]
  have := ctrIn_ram hE len (R.bytes d len) R d _ (by rw [hl]; omega) o1 (by rwa [hl]) o3 (by rwa [hl]) a1 (by rwa [hl]) hv
    (by rw [hl])
  rwa [hl] at this

/-- C81 in place, short messages: below 64 bytes counters of any size that divides 64 are right. -/
theorem ram_ctr_in_short (hE : ∀ b, b.length = c → (E b).length = c) (hc : 2 ≤ c) (hdv : c ∣ 64) (R : Ram)
    (ctx buf d len : Nat) (hlen : len < 64)
    (ho : AllOwned R [(ctx, c), (d, len), (buf, 64)]) (ha : AllApart [(ctx, c), (buf, 64), (d, len)]) :
    ∃ R', ctrCrypt E c ctx buf R d d len = some R' ∧
      Wrote R R' [(d, xorB (R.bytes d len) (ctrStream E c (beVal (R.bytes ctx c)) ((len + c - 1) / c))),
        (ctx, encodeBE c (beVal (R.bytes ctx c) + (len + c - 1) / c))] [(buf, 64)] := by
  simp only [AllOwned, List.mem_cons, List.not_mem_nil, or_false, forall_eq_or_imp, forall_eq] at ho
  simp only [AllApart, List.pairwise_cons, List.mem_cons, List.not_mem_nil, or_false, forall_eq_or_imp, forall_eq] at ha
  obtain ⟨o1, o2, o3⟩ := ho
  obtain ⟨⟨a1, a2⟩, a3, -⟩ := ha
  have hl : (R.bytes d len).length = len := bytes_length _ _
  have hv : R.bytes ctx c = encodeBE c (beVal (R.bytes ctx c)) := by
    have := Modes.encodeBE_beVal (R.bytes ctx c)
    rw [bytes_length] at this
    exact this.symm
  have hfit : (len + c - 1) / c * c ≤ 64 := by
    obtain ⟨q, hq⟩ := hdv
    have : (len + c - 1) / c ≤ q := by
      rw [← Nat.lt_succ_iff, Nat.div_lt_iff_lt_mul (by omega), Nat.succ_mul, Nat.mul_comm, ← hq]
      omega
    have := Nat.mul_le_mul_right c this
    rw [Nat.mul_comm q, ← hq] at this
    exact this
  unfold ctrCrypt
  rw [if_neg (by simp)]
  have := ctrIn_end (src := R.bytes d len) (d := d) hE hc len (by rwa [hl]) (by rwa [hl]) o1 (by rwa [hl]) o3 (by rwa [hl]) a1
    (by rwa [hl]) hv (by rw [hl])
  rwa [hl] at this

/-- C81: encrypting in place twice from the same counter gives the message back (counters of 16 bytes). -/
theorem ram_ctr_twice_partial (hE : ∀ b, b.length = 16 → (E b).length = 16) (R : Ram) (ctx buf d len : Nat)
    (ho : AllOwned R [(ctx, 16), (d, len), (buf, 64)]) (ha : AllApart [(ctx, 16), (buf, 64), (d, len)]) :
    ∃ R1 R2, ctrCrypt E 16 ctx buf R d d len = some R1 ∧
      ctrCrypt E 16 ctx buf (R1.put ctx (R.bytes ctx 16)) d d len = some R2 ∧
      R2.bytes ctx 16 = R1.bytes ctx 16 ∧ Wrote R R2 [(d, R.bytes d len)] [(ctx, 16), (buf, 64)] := by
  have ha' := ha
  have ho' := ho
  simp only [AllOwned, List.mem_cons, List.not_mem_nil, or_false, forall_eq_or_imp, forall_eq] at ho
  obtain ⟨o1, o2, o3⟩ := ho
  simp only [AllApart, List.pairwise_cons, List.mem_cons, List.not_mem_nil, or_false, forall_eq_or_imp, forall_eq] at ha
  obtain ⟨⟨a1, a2⟩, a3, -⟩ := ha
  have hil : (R.bytes ctx 16).length = 16 := bytes_length _ _
  have hdl : (R.bytes d len).length = len := bytes_length _ _
  obtain ⟨R1, h1, w1⟩ := ram_ctr_in_partial hE R ctx buf d len ho' ha'
  have hOw : ∀ a n, R.Owned a n → (R1.put ctx (R.bytes ctx 16)).Owned a n := by
    intro a n h i hi
    rw [put_own, w1.own]
    exact h i hi
  obtain ⟨R2, h2, w2⟩ := ram_ctr_in_partial hE (R1.put ctx (R.bytes ctx 16)) ctx buf d len
    (by
      simp only [AllOwned, List.mem_cons, List.not_mem_nil, or_false, forall_eq_or_imp, forall_eq]
      exact ⟨hOw _ _ o1, hOw _ _ o2, hOw _ _ o3⟩) ha'
  have hge : len ≤ (len + 15) / 16 * 16 := by omega
  have hsl := ctrStream_length hE (beVal (R.bytes ctx 16)) ((len + 15) / 16)
  have hel : (xorB (R.bytes d len) (ctrStream E 16 (beVal (R.bytes ctx 16)) ((len + 15) / 16))).length = len := by
    rw [xorB_length, hdl, hsl]; omega
  have hd1 : R1.bytes d len = xorB (R.bytes d len) (ctrStream E 16 (beVal (R.bytes ctx 16)) ((len + 15) / 16)) := by
    have := w1.at_ _ (List.mem_cons_self ..)
    dsimp only at this
    rwa [hel] at this
  have hc1 := w1.at_ _ (List.mem_cons_of_mem _ (List.mem_cons_self ..))
  dsimp only at hc1
  rw [encodeBE_length] at hc1
  have hv := bytes_put_same (R := R1) (a := ctx) hil
  have hd2 : (R1.put ctx (R.bytes ctx 16)).bytes d len =
      xorB (R.bytes d len) (ctrStream E 16 (beVal (R.bytes ctx 16)) ((len + 15) / 16)) := by
    rw [bytes_put_apart (by rw [hil]; exact a2), hd1]
  rw [hv, hd2, Modes.xorB_cancel (by rw [hdl, hsl]; exact hge)] at w2
  have hc2 := w2.at_ _ (List.mem_cons_of_mem _ (List.mem_cons_self ..))
  dsimp only at hc2
  rw [encodeBE_length] at hc2
  refine ⟨R1, R2, h1, h2, by rw [hc1, hc2], by rw [w2.own, put_own, w1.own], by rw [w2.tmp, put_tmp, w1.tmp], ?_, ?_⟩
  · simp only [List.mem_cons, List.not_mem_nil, or_false, forall_eq]
    exact w2.at_ _ (List.mem_cons_self ..)
  · intro x k1 k2
    simp only [List.mem_cons, List.not_mem_nil, or_false, forall_eq_or_imp, forall_eq] at k1 k2
    rw [w2.else_ x (by
        simp only [List.mem_cons, List.not_mem_nil, or_false, forall_eq_or_imp, forall_eq]
        exact ⟨k1, by rw [encodeBE_length]; exact k2.1⟩)
      (by simp only [List.mem_cons, List.not_mem_nil, or_false, forall_eq]; exact k2.2),
      put_mem_out (by rw [hil]; exact k2.1), w1.else_ x (by
        simp only [List.mem_cons, List.not_mem_nil, or_false, forall_eq_or_imp, forall_eq]
        exact ⟨by rw [hel]; rwa [hdl] at k1, by rw [encodeBE_length]; exact k2.1⟩)
      (by simp only [List.mem_cons, List.not_mem_nil, or_false, forall_eq]; exact k2.2)]

/-- C81 fails for an output that overlaps the input: with the output one block behind the start of the input, the counters
are written over the second block of the message, and the second output block does not depend on the message at all. -/
theorem ram_ctr_ahead (hE : ∀ b, b.length = c → (E b).length = c) (hc : 2 ≤ c) (R : Ram) (ctx buf s : Nat)
    (ho : AllOwned R [(ctx, c), (s, 3 * c)]) (ha : Apart ctx c s (3 * c)) :
    ∃ R', ctrCrypt E c ctx buf R (s + c) s (2 * c) = some R' ∧
      R'.bytes (s + c) (2 * c) =
        xorB (R.bytes s c) (E (R.bytes ctx c)) ++ xorB (E (R.bytes ctx c)) (E (encodeBE c (beVal (R.bytes ctx c) + 1))) := by
  simp only [AllOwned, List.mem_cons, List.not_mem_nil, or_false, forall_eq_or_imp, forall_eq] at ho
  obtain ⟨o1, o2⟩ := ho
  have hv : R.bytes ctx c = encodeBE c (beVal (R.bytes ctx c)) := by
    have := Modes.encodeBE_beVal (R.bytes ctx c)
    rw [bytes_length] at this
    exact this.symm
  generalize beVal (R.bytes ctx c) = n at *
  unfold ctrCrypt ctrOut
  rw [if_pos (by omega), ctrFillDown_ram hc _ _ n (s + c) R (Nat.div_le_self _ _) o1 (by ownof o2) (by apof ha) hv,
    Option.bind_some]
  dsimp only
  rw [Nat.mul_mod_left, Nat.mul_div_cancel _ (by omega), Nat.sub_zero, Nat.mul_div_cancel _ (by omega)]
  have hfl := ctrBlocks_flatten_length c n 2
  have hel := encodeBE_length c (n + 2)
  have hsl := ctrStream_length hE n 2
  have e1 := hE _ (encodeBE_length c n)
  have e2 := hE _ (encodeBE_length c (n + 1))
  rw [cipher_ctr (n := n) hE (by ownof o2) (by rw [bytes_put_apart (by rw [hel]; apof ha), bytes_put_same hfl]),
    Option.bind_some, xor1_eq (by ownof o2) (by ownof o2), Option.bind_some, if_neg (by simp)]
  refine ⟨_, rfl, ?_⟩
  have hs : ctrStream E c n 2 = E (encodeBE c n) ++ E (encodeBE c (n + 1)) := by simp [ctrStream]
  rw [bytes_put_same (by rw [xorB_length, bytes_length, bytes_length]; omega), bytes_put_same hsl, Nat.two_mul, bytes_add s,
    bytes_put_apart (by rw [hsl]; apt), bytes_put_apart (by rw [hel]; apof ha), bytes_put_apart (by rw [hfl]; apt),
    bytes_take (bytes_put_same hsl) (by omega : c ≤ 2 * c), hs, List.take_append_of_le_length (by omega),
    List.take_of_length_le (by omega), Modes.xorB_append _ _ (by rw [e1, bytes_length]), xorB_comm, hv,
    xorB_comm (E (encodeBE c (n + 1)))]

/-- C81 fails: a concrete overlapping call with the wrong output. -/
theorem ram_ctr_ahead_bad : ∃ R' : Ram, ctrCrypt toyE 8 100 120 exRam 8 0 16 = some R' ∧
    R'.bytes 8 16 ≠ xorB (exRam.bytes 0 16) (ctrStream toyE 8 (beVal (exRam.bytes 100 8)) 2) := by
  obtain ⟨R', h1, h2⟩ := ram_ctr_ahead (E := toyE) (c := 8) (by simp [toyE]) (by omega) exRam 100 120 0
    (by
      simp only [AllOwned, List.mem_cons, List.not_mem_nil, or_false, forall_eq_or_imp, forall_eq]
      exact ⟨exRam_owned (by omega), exRam_owned (by omega)⟩) (by decide)
  refine ⟨R', h1, ?_⟩
  rw [show R'.bytes 8 16 = _ from h2]
  decide +kernel

set_option maxHeartbeats 800000 in
/-- C81 fails in place for counters of 8 bytes from 64 bytes on: the second half of the key stream is what the cipher makes
of the uninitialised local array, and the counter has advanced by 4 instead of 8. -/
theorem ram_ctr_in_small (hE : ∀ b, b.length = 8 → (E b).length = 8) (R : Ram) (ctx buf d : Nat)
    (ho : AllOwned R [(ctx, 8), (d, 64), (buf, 64)]) (ha : AllApart [(ctx, 8), (buf, 64), (d, 64)]) :
    ∃ R', ctrCrypt E 8 ctx buf R d d 64 = some R' ∧
      Wrote R R' [(d, xorB (R.bytes d 64) (ctrStream E 8 (beVal (R.bytes ctx 8)) 4 ++
          (E (R.bytes (buf + 32) 8) ++ E (R.bytes (buf + 40) 8) ++ E (R.bytes (buf + 48) 8) ++ E (R.bytes (buf + 56) 8)))),
        (ctx, encodeBE 8 (beVal (R.bytes ctx 8) + 4))] [(buf, 64)] := by
  simp only [AllOwned, List.mem_cons, List.not_mem_nil, or_false, forall_eq_or_imp, forall_eq] at ho
  simp only [AllApart, List.pairwise_cons, List.mem_cons, List.not_mem_nil, or_false, forall_eq_or_imp, forall_eq] at ha
  obtain ⟨o1, o2, o3⟩ := ho
  obtain ⟨⟨a1, a2⟩, a3, -⟩ := ha
  have hv : R.bytes ctx 8 = encodeBE 8 (beVal (R.bytes ctx 8)) := by
    have := Modes.encodeBE_beVal (R.bytes ctx 8)
    rw [bytes_length] at this
    exact this.symm
  generalize beVal (R.bytes ctx 8) = n at *
  have hfl := ctrBlocks_flatten_length 8 n 4
  have hel := encodeBE_length 8 (n + 4)
  have hbl := Modes.ctrBlocks_blocks 8 n 4
  have hb4 := Modes.ctrBlocks_length 8 n 4
  have hst := Modes.ctrStream_eq (E := E) 8 4 n
  unfold ctrCrypt
  rw [if_neg (by simp), ctrIn.eq_def]
  dsimp only
  rw [if_pos (by omega), ctrFill_ram (by omega) 4 n buf R (Nat.le_refl _) (by omega) o1 o3 a1 hv, Option.bind_some,
    if_neg (by simp)]
  generalize encodeBE 8 (n + 4) = last at *
  generalize hR1 : (R.put buf (ctrBlocks 8 n 4).flatten).put ctx _ = R1
  have o1' : R1.own = R.own := by rw [← hR1]; rfl
  have t1' : R1.tmp = R.tmp := by rw [← hR1]; rfl
  have hc1 : R1.bytes ctx 8 = last := by
    rw [← hR1]; exact bytes_put_same (by assumption)
  have hb1 : R1.bytes buf 32 = (ctrBlocks 8 n 4).flatten := by
    rw [← hR1, bytes_put_apart (by rw [hel]; apof a1), bytes_put_same hfl]
  have hj : ∀ i, 32 ≤ i → i + 8 ≤ 64 → R1.bytes (buf + i) 8 = R.bytes (buf + i) 8 := by
    intro i h1 h2
    rw [← hR1, bytes_put_apart (by rw [hel]; apof a1), bytes_put_apart (by rw [hfl]; unfold Apart; omega)]
  have hd1 : R1.bytes d 64 = R.bytes d 64 := by
    rw [← hR1, bytes_put_apart (by rw [hel]; apof a2), bytes_put_apart (by rw [hfl]; apof a3)]
  have hm1 : ∀ x, Outside x ctx 8 → Outside x buf 64 → R1.mem x = R.mem x := by
    intro x h1 h2
    unfold Outside at h1 h2
    rw [← hR1, put_mem_out (by rw [hel]; omega), put_mem_out (by rw [hfl]; omega)]
  have hO : ∀ a k, R.Owned a k → R1.Owned a k := by
    intro a k h i hi
    rw [o1']; exact h i hi
  have e : R1.bytes buf 64 = (ctrBlocks 8 n 4 ++ [R.bytes (buf + 32) 8, R.bytes (buf + 40) 8, R.bytes (buf + 48) 8,
      R.bytes (buf + 56) 8]).flatten := by
    rw [bytes_split (k := 32) buf (by omega), hb1, List.flatten_append]
    refine congrArg₂ (· ++ ·) rfl ?_
    rw [bytes_split (k := 8) (buf + 32) (by omega), bytes_split (k := 8) (buf + 32 + 8) (by omega),
      bytes_split (k := 8) (buf + 32 + 8 + 8) (by omega), Nat.add_assoc, Nat.add_assoc, Nat.add_assoc, hj _ (by omega) (by omega),
      hj _ (by omega) (by omega), hj _ (by omega) (by omega)]
    simp only [List.flatten_cons, List.flatten_nil, List.append_nil]
    rw [hj 56 (by omega) (by omega)]
  have hcl := cipher_eq (F := E) hE (ctrBlocks 8 n 4 ++ [R.bytes (buf + 32) 8, R.bytes (buf + 40) 8, R.bytes (buf + 48) 8,
      R.bytes (buf + 56) 8]) R1 buf buf (by
        intro b hb
        rcases List.mem_append.1 hb with h | h
        · exact hbl b h
        · simp only [List.mem_cons, List.not_mem_nil, or_false] at h
          rcases h with rfl | rfl | rfl | rfl <;> exact bytes_length _ _)
    (by rw [List.length_append, hb4]; exact hO _ _ o3) (by rw [List.length_append, hb4]; exact hO _ _ o3)
    (Or.inl (Nat.le_refl _)) (by rw [List.length_append, hb4]; exact e)
  rw [List.length_append, hb4] at hcl
  have hK : ((ctrBlocks 8 n 4 ++ [R.bytes (buf + 32) 8, R.bytes (buf + 40) 8, R.bytes (buf + 48) 8,
      R.bytes (buf + 56) 8]).map E).flatten = ctrStream E 8 n 4 ++
          (E (R.bytes (buf + 32) 8) ++ E (R.bytes (buf + 40) 8) ++ E (R.bytes (buf + 48) 8) ++ E (R.bytes (buf + 56) 8)) := by
    rw [List.map_append, List.flatten_append, hst]
    simp only [List.map_cons, List.map_nil, List.flatten_cons, List.flatten_nil, List.append_nil, List.append_assoc]
  have hKl : (ctrStream E 8 n 4 ++ (E (R.bytes (buf + 32) 8) ++ E (R.bytes (buf + 40) 8) ++ E (R.bytes (buf + 48) 8) ++
      E (R.bytes (buf + 56) 8))).length = 64 := by
    simp only [List.length_append, ctrStream_length hE, hE _ (bytes_length _ _)]
  rw [hK] at hcl
  generalize ctrStream E 8 n 4 ++ (_ ++ _) = K at *
  have hX : (xorB (R.bytes d 64) K).length = 64 := by rw [xorB_length, hKl, bytes_length]; rfl
  rw [show (64 : Nat) / 8 = 4 + [R.bytes (buf + 32) 8, R.bytes (buf + 40) 8, R.bytes (buf + 48) 8,
      R.bytes (buf + 56) 8].length by rfl, hcl, Option.bind_some, xor2_eq ((owned_put _ _ _ _).2 (hO _ _ o2))
      ((owned_put _ _ _ _).2 (hO _ _ o3)) ((owned_put _ _ _ _).2 (hO _ _ o2)) (by apof a3), Option.bind_some, bytes_put_same hKl, bytes_put_apart (by rw [hKl]; apof a3), hd1, ctrIn.eq_def]
  dsimp only
  rw [if_neg (by omega), if_neg (by omega)]
  refine ⟨_, rfl, by rw [put_own, put_own, o1'], by rw [put_tmp, put_tmp, t1'], ?_, ?_⟩
  · simp only [List.mem_cons, List.not_mem_nil, or_false, forall_eq_or_imp, forall_eq]
    refine ⟨bytes_put_same rfl, ?_⟩
    rw [hel, bytes_put_apart (by rw [hX]; apof a2), bytes_put_apart (by rw [hKl]; apof a1), hc1]
  · intro x k1 k2
    simp only [List.mem_cons, List.not_mem_nil, or_false, forall_eq_or_imp, forall_eq] at k1 k2
    rw [put_mem_out k1.1, put_mem_out (by rw [hKl]; exact k2), hm1 x (by have := k1.2; rwa [hel] at this) k2]

/-- Concrete case of C81: 20 bytes to a buffer behind the input. -/
example : ∃ R' : Ram, ctrCrypt toyE 8 100 120 exRam 40 0 20 = some R' ∧
    R'.bytes 40 20 = xorB (exRam.bytes 0 20) (ctrStream toyE 8 (beVal (exRam.bytes 100 8)) 3) := by
  obtain ⟨R', h, w⟩ := ram_ctr_out (E := toyE) (c := 8) (by simp [toyE]) (by omega) exRam 100 120 40 0 20 (by omega)
    (by
      simp only [AllOwned, List.mem_cons, List.not_mem_nil, or_false, forall_eq_or_imp, forall_eq]
      exact ⟨exRam_owned (by decide), exRam_owned (by decide), exRam_owned (by decide), exRam_owned (by decide)⟩)
    (by unfold AllApart; decide)
  exact ⟨R', h, w.at_ _ (List.mem_cons_self ..)⟩

/-- Concrete case of C81: 90 bytes in place with a counter of 16 bytes, twice. -/
example : ∃ R1 R2 : Ram, ctrCrypt toyE 16 100 120 exRam 0 0 90 = some R1 ∧
    ctrCrypt toyE 16 100 120 (R1.put 100 (exRam.bytes 100 16)) 0 0 90 = some R2 ∧ R2.bytes 0 90 = exRam.bytes 0 90 := by
  obtain ⟨R1, R2, h1, h2, -, w⟩ := ram_ctr_twice_partial (E := toyE) (by simp [toyE]) exRam 100 120 0 90
    (by
      simp only [AllOwned, List.mem_cons, List.not_mem_nil, or_false, forall_eq_or_imp, forall_eq]
      exact ⟨exRam_owned (by decide), exRam_owned (by decide), exRam_owned (by decide)⟩)
    (by unfold AllApart; decide)
  exact ⟨R1, R2, h1, h2, w.at_ _ (List.mem_cons_self ..)⟩

/-- C81 fails: a concrete call in place with a counter of 8 bytes whose output is not the standard one. -/
theorem ram_ctr_in_small_bad : ∃ R' : Ram, ctrCrypt toyE 8 100 120 exRam 0 0 64 = some R' ∧
    R'.bytes 0 64 ≠ xorB (exRam.bytes 0 64) (ctrStream toyE 8 (beVal (exRam.bytes 100 8)) 8) := by
  obtain ⟨R', h, w⟩ := ram_ctr_in_small (E := toyE) (by simp [toyE]) exRam 100 120 0
    (by
      simp only [AllOwned, List.mem_cons, List.not_mem_nil, or_false, forall_eq_or_imp, forall_eq]
      exact ⟨exRam_owned (by decide), exRam_owned (by decide), exRam_owned (by decide)⟩) (by unfold AllApart; decide)
  refine ⟨R', h, ?_⟩
  have := w.at_ _ (List.mem_cons_self ..)
  rw [show R'.bytes 0 64 = _ from this]
  decide +kernel

end Verif.Ram
