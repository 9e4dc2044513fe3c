import Verif.Lemmas.Ram.GcmCalls
/-! GCM with the output in the way of the input. -/
namespace Verif.Ram
open Verif.Modes (inc32 xorB)

/-- The loop is defined wherever the output is. -/
theorem gcmOperateLoop_safe {E : List Byte → List Byte} (hE : ∀ b, b.length = 16 → (E b).length = 16) {ctr buf : Nat} (cb : Apart ctr 16 buf 16) (ip : Bool) :
    ∀ (k : Nat) (R : Ram) (d s n : Nat), n < k → R.Owned ctr 16 → R.Owned buf 16 → R.Owned s n → R.Owned d n → Apart buf 16 d n →
    ∃ R', gcmOperateLoop E ctr buf ip k R d s n = some R' ∧ R'.own = R.own ∧ R'.tmp = R.tmp ∧
      ∀ x, Outside x d n → Outside x ctr 16 → Outside x buf 16 → R'.mem x = R.mem x
  | 0, _, _, _, _, h, _, _, _, _, _ => by omega
  | k + 1, R, d, s, n, hn, oc, ob, os, od, bd => by
    have hEc := hE _ (bytes_length (R := R) ctr 16)
    rw [gcmOperateLoop]
    by_cases h16 : 16 ≤ n
    · rw [if_pos h16]
      obtain ⟨R1, e1, o1, t1, f1⟩ : ∃ R1, (if ip then (cipher E 16 1 R buf ctr).bind fun R => xor2 R d s buf 16
          else (cipher E 16 1 R d ctr).bind fun R => xor1 R d s 16) = some R1 ∧ R1.own = R.own ∧ R1.tmp = R.tmp ∧
          ∀ x, Outside x d 16 → Outside x buf 16 → R1.mem x = R.mem x := by
        cases ip
        · rw [if_neg Bool.false_ne_true, cipher_one oc (by ownof od), Option.bind_some, xor1_eq (by ownof os) (by ownof od)]
          refine ⟨_, rfl, rfl, rfl, fun x h1 _ => ?_⟩
          rw [put_mem_out (by rw [Modes.xorB_length, bytes_length, bytes_length]; exact h1), put_mem_out (by rw [hEc]; exact h1)]
        · rw [if_pos rfl, cipher_one oc ob, Option.bind_some, xor2_eq (by ownof os) (by ownof ob) (by ownof od) (by apof bd)]
          refine ⟨_, rfl, rfl, rfl, fun x h1 h2 => ?_⟩
          rw [put_mem_out (by rw [Modes.xorB_length, bytes_length, bytes_length]; exact h1), put_mem_out (by rw [hEc]; exact h2)]
      have w1 : ∀ a m, R.Owned a m → R1.Owned a m := fun a m h => owned_of_own o1 h
      have hi := inc32_len (bytes_length (R := R1) ctr 16)
      rw [e1, Option.bind_some, inc32_ram (w1 _ _ oc), Option.bind_some]
      obtain ⟨R', e', o', t', f'⟩ := gcmOperateLoop_safe hE cb ip k (R1.put ctr (inc32 (R1.bytes ctr 16))) (d + 16) (s + 16) (n - 16) (by omega)
        (w1 _ _ oc) (w1 _ _ ob) (w1 _ _ (by ownof os)) (w1 _ _ (by ownof od)) (by apof bd)
      refine ⟨R', e', o'.trans o1, t'.trans t1, fun x h1 h2 h3 => ?_⟩
      rw [f' _ (by unfold Outside at *; omega) h2 h3, put_mem_out (by rw [hi]; exact h2), f1 _ (by unfold Outside at *; omega) h3]
    · rw [if_neg h16]
      by_cases h0 : 0 < n
      · rw [if_pos h0, cipher_one oc ob, Option.bind_some, xor2_eq (by ownof os) (by ownof ob) (by ownof od) (by apof bd), Option.bind_some, inc32_ram (by ownof oc)]
        refine ⟨_, rfl, rfl, rfl, fun x h1 h2 h3 => ?_⟩
        rw [put_mem_out (by rw [inc32_len (bytes_length _ _)]; exact h2), put_mem_out (by rw [Modes.xorB_length, bytes_length, bytes_length, Nat.min_self]; exact h1),
          put_mem_out (by rw [hEc]; exact h3)]
      · rw [if_neg h0]
        exact ⟨R, rfl, rfl, rfl, fun x _ _ _ => rfl⟩

/-- The cipher with all output zero: with it the output should be the input. -/
def zeroE (_ : List Byte) : List Byte := List.replicate 16 0

theorem zeroE_len : ∀ b, b.length = 16 → (zeroE b).length = 16 := fun _ _ => rfl

theorem gctrStream_zero : ∀ (k : Nat) (cb : List Byte), Modes.gctrStream zeroE cb k = List.replicate (16 * k) 0
  | 0, _ => rfl
  | k + 1, cb => by
    rw [Modes.gctrStream, gctrStream_zero k, zeroE, ← List.replicate_add]
    congr 1; omega

theorem xorB_zero : ∀ (l : List Byte) {m : Nat}, l.length ≤ m → xorB l (List.replicate m 0) = l
  | [], _, _ => by simp [xorB]
  | a :: l, 0, h => by simp at h
  | a :: l, m + 1, h => by
    rw [List.replicate_succ, xorB, List.zipWith_cons_cons, ← xorB, xorB_zero l (by simpa using h)]
    simp

theorem gctr_zero (icb x : List Byte) : Modes.gctr zeroE icb x = x := by
  rw [Modes.gctr, gctrStream_zero, xorB_zero]
  omega

theorem zero_xorB (l : List Byte) {m : Nat} (h : l.length ≤ m) : xorB (List.replicate m 0) l = l := by
  rw [Modes.xorB_comm, xorB_zero l h]

/-- Output at least a block behind the start of the input: every byte of the output is, in the end, the byte of the input area. -/
theorem copy_up {ctr buf : Nat} (cb : Apart ctr 16 buf 16) :
    ∀ (k : Nat) (R : Ram) (d s n : Nat), n < k → s + 16 ≤ d → R.Owned ctr 16 → R.Owned buf 16 → R.Owned s n → R.Owned d n → Apart buf 16 d n → Apart buf 16 s n →
      Apart ctr 16 s n → Apart ctr 16 d n →
    ∃ R', gcmOperateLoop zeroE ctr buf false k R d s n = some R' ∧ R'.own = R.own ∧ R'.tmp = R.tmp ∧
      (∀ x, Outside x d n → Outside x ctr 16 → Outside x buf 16 → R'.mem x = R.mem x) ∧ ∀ i < n, R'.mem (d + i) = R'.mem (s + i)
  | 0, _, _, _, _, h, _, _, _, _, _, _, _, _, _ => by omega
  | k + 1, R, d, s, n, hn, hds, oc, ob, os, od, bd, bs, cs, cd => by
    have hEc : ∀ l, (zeroE l).length = 16 := fun _ => rfl
    unfold Apart at bd bs cs cd cb
    rw [gcmOperateLoop]
    by_cases h16 : 16 ≤ n
    · rw [if_pos h16, if_neg Bool.false_ne_true, cipher_one oc (by ownof od), Option.bind_some, xor1_eq (by ownof os) (by ownof od), bytes_put_same (hEc _),
        bytes_put_apart (by rw [hEc]; apt), zeroE, zero_xorB _ (by rw [bytes_length]), put_put_same (by simp), Option.bind_some, inc32_ram (by ownof oc), Option.bind_some]
      have hi := inc32_len (bytes_length (R := R.put d (R.bytes s 16)) ctr 16)
      obtain ⟨R', e', o', t', f', c'⟩ := copy_up cb k ((R.put d (R.bytes s 16)).put ctr (inc32 ((R.put d (R.bytes s 16)).bytes ctr 16))) (d + 16) (s + 16) (n - 16) (by omega)
        (by omega) (by ownof oc) (by ownof ob) (by ownof os) (by ownof od) (by apt) (by apt) (by apt) (by apt)
      refine ⟨R', e', o', t', fun x h1 h2 h3 => ?_, fun i hin => ?_⟩
      · unfold Outside at *
        rw [f' x (by omega) h2 h3, put_mem_out (by rw [hi]; exact h2), put_mem_out (by rw [bytes_length]; omega)]
      · by_cases h : i < 16
        · rw [f' (d + i) (by unfold Outside; omega) (by unfold Outside; omega) (by unfold Outside; omega),
            f' (s + i) (by unfold Outside; omega) (by unfold Outside; omega) (by unfold Outside; omega), put_mem_out (a := ctr) (x := d + i) (by rw [hi]; omega), put_mem_out (a := ctr) (x := s + i) (by rw [hi]; omega),
            put_mem_in (by rw [bytes_length]; exact h), put_mem_out (x := s + i) (by rw [bytes_length]; omega)]
          exact ((bytes_eq_iff (bytes_length (R := R) s 16)).1 rfl i (by rw [bytes_length]; exact h)).symm
        · have := c' (i - 16) (by omega)
          rwa [show d + 16 + (i - 16) = d + i by omega, show s + 16 + (i - 16) = s + i by omega] at this
    · rw [if_neg h16]
      by_cases h0 : 0 < n
      · rw [if_pos h0, cipher_one oc ob, Option.bind_some, xor2_eq (by ownof os) (by ownof ob) (by ownof od) (by apt), Option.bind_some,
          bytes_put_part le_rfl (by rw [hEc]; omega), bytes_put_apart (by rw [hEc]; apt), Nat.sub_self, List.drop_zero, zeroE, List.take_replicate,
          xorB_zero _ (by rw [bytes_length]; omega), inc32_ram (by ownof oc)]
        have hz : (List.replicate 16 (0 : Byte)).length = 16 := rfl
        refine ⟨_, rfl, rfl, rfl, fun x h1 h2 h3 => ?_, fun i hin => ?_⟩
        · rw [put_mem_out (by rw [inc32_len (bytes_length _ _)]; exact h2), put_mem_out (by rw [bytes_length]; exact h1), put_mem_out (by rw [hz]; exact h3)]
        · rw [put_mem_out (by rw [inc32_len (bytes_length _ _)]; omega), put_mem_in (by rw [bytes_length]; exact hin),
            put_mem_out (x := s + i) (by rw [inc32_len (bytes_length _ _)]; omega), put_mem_out (x := s + i) (by rw [bytes_length]; omega),
            put_mem_out (x := s + i) (by rw [hz]; omega)]
          exact ((bytes_eq_iff (bytes_length (R := R) s n)).1 rfl i (by rw [bytes_length]; exact hin)).symm
      · rw [if_neg h0]
        exact ⟨R, rfl, rfl, rfl, fun x _ _ _ => rfl, fun i hin => by omega⟩

/-- Output less than a block away from the input, but not on it: the first block of the output is the overwritten input. -/
theorem first_block {ctr buf : Nat} (cb : Apart ctr 16 buf 16) (R : Ram) {d s n : Nat} (hn : 16 ≤ n) (oc : R.Owned ctr 16) (ob : R.Owned buf 16) (os : R.Owned s n)
    (od : R.Owned d n) (bd : Apart buf 16 d n) (cd : Apart ctr 16 d n) :
    ∃ R', gcmOperateLoop zeroE ctr buf false (n + 1) R d s n = some R' ∧ R'.own = R.own ∧ R'.tmp = R.tmp ∧
      (∀ x, Outside x d n → Outside x ctr 16 → Outside x buf 16 → R'.mem x = R.mem x) ∧
      ∀ i < 16, R'.mem (d + i) = if d ≤ s + i ∧ s + i < d + 16 then 0 else R.mem (s + i) := by
  have hEc : ∀ l, (zeroE l).length = 16 := fun _ => rfl
  unfold Apart at bd cd cb
  rw [gcmOperateLoop, if_pos hn, if_neg Bool.false_ne_true, cipher_one oc (by ownof od), Option.bind_some, xor1_eq (by ownof os) (by ownof od), bytes_put_same (hEc _), zeroE,
    zero_xorB _ (by rw [bytes_length]), put_put_same (by simp), Option.bind_some, inc32_ram (by ownof oc), Option.bind_some]
  generalize hB : (R.put d (List.replicate 16 0)).bytes s 16 = B
  have hBl : B.length = 16 := by rw [← hB, bytes_length]
  have hi := inc32_len (bytes_length (R := R.put d B) ctr 16)
  obtain ⟨R', e', o', t', f'⟩ := gcmOperateLoop_safe zeroE_len cb false n ((R.put d B).put ctr (inc32 ((R.put d B).bytes ctr 16))) (d + 16) (s + 16) (n - 16) (by omega)
    (by ownof oc) (by ownof ob) (by ownof os) (by ownof od) (by apt)
  refine ⟨R', e', o', t', fun x h1 h2 h3 => ?_, fun i hi16 => ?_⟩
  · unfold Outside at *
    rw [f' x (by omega) h2 h3, put_mem_out (by rw [hi]; exact h2), put_mem_out (by rw [hBl]; omega)]
  · rw [f' (d + i) (by unfold Outside; omega) (by unfold Outside; omega) (by unfold Outside; omega), put_mem_out (by rw [hi]; omega), put_mem_in (by omega),
      ← (bytes_eq_iff hBl).1 hB i (by omega), put_get]
    simp only [List.length_replicate, List.getElem_replicate]
    split_ifs with h1 <;> rfl

end Verif.Ram
