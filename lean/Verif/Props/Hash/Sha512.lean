import Verif.Lemmas.Hash.Sha512
/-!
# C38: SHA-512 and SHA-384

The full statement would be `digest b (chunks.foldl update (init b)) = (if b then HashS.sha384 else HashS.sha512)
chunks.flatten` for all chunks.  It is false when the number of bytes after the last whole block is 112 or more
(`sha512_wrong`): the padding then fills the block and the length is never processed.
-/
namespace Verif.Hash.Sha512
open Verif.HashS Verif.HashL
open Verif.Modes (encodeBE)

theorem updates_rep (is384 : Bool) (chunks : List (List Byte)) (hc : ∀ d ∈ chunks, d.length < 2 ^ 32) :
    Rep is384 (chunks.foldl update (init is384)) chunks.flatten := by
  have : ∀ (cs : List (List Byte)) (c : Ctx) (m : List Byte), (∀ d ∈ cs, d.length < 2 ^ 32) → Rep is384 c m →
      Rep is384 (cs.foldl update c) (m ++ cs.flatten) := by
    intro cs
    induction cs with
    | nil => intro c m _ h; simpa using h
    | cons d cs ih =>
      intro c m hcs h
      rw [List.foldl_cons, List.flatten_cons, ← List.append_assoc]
      exact ih _ _ (fun x hx => hcs x (by simp [hx])) (update_rep (hcs d (by simp)) h)
  exact this chunks _ [] hc (init_rep is384)

theorem out_spec (is384 : Bool) (m : List Byte) :
    out is384 (mdFold 128 process (init is384).state (mdPad 128 16 (encodeBE 16 (8 * m.length)) m)) =
      if is384 then HashS.sha384 m else HashS.sha512 m := by
  rw [fold_spec, iv_eq]
  cases is384 <;> rfl

/-- C38, partial: for every message and every way of splitting it into update calls of less than 4 GiB the digest is
the one of FIPS 180-4, provided that the message length modulo 128 is below 112. -/
theorem sha512_partial (is384 : Bool) (chunks : List (List Byte)) (hc : ∀ d ∈ chunks, d.length < 2 ^ 32)
    (hm : chunks.flatten.length % 128 < 112) :
    digest is384 (chunks.foldl update (init is384)) =
      if is384 then HashS.sha384 chunks.flatten else HashS.sha512 chunks.flatten := by
  rw [digest_state (updates_rep is384 chunks hc), if_pos hm, out_spec]

/-- C38: for the other lengths the digest is the iteration over the message, a one bit and zeros: the length is left
out.  (It does not depend on the splitting either.) -/
theorem sha512_no_length (is384 : Bool) (chunks : List (List Byte)) (hc : ∀ d ∈ chunks, d.length < 2 ^ 32)
    (hm : 112 ≤ chunks.flatten.length % 128) :
    digest is384 (chunks.foldl update (init is384)) =
      (mdFold 128 (fun H b => compress p512 H (wordBE 8 b))
        (ivOf 64 fun i => primes.getD (if is384 then i + 8 else i) 0)
        (chunks.flatten ++ [0x80] ++ List.replicate (127 - chunks.flatten.length % 128) 0)).bytes.take
          (if is384 then 48 else 64) := by
  rw [digest_state (updates_rep is384 chunks hc), if_neg (by omega), fold_spec, iv_eq]
  generalize mdFold 128 _ _ _ = st
  cases is384
  · have : st.bytes.length = 64 := by simp [Regs.bytes, Verif.Modes.encodeBE_length]
    exact (List.take_of_length_le (l := st.bytes) (by rw [if_neg (by simp), this])).symm
  · rfl

/-- C38 is false of the code: the digest of 112 zero bytes is not the one of FIPS 180-4. -/
theorem sha512_wrong : Sha512.hash false (List.replicate 112 0) ≠ HashS.sha512 (List.replicate 112 0) ∧
    Sha512.hash true (List.replicate 112 0) ≠ HashS.sha384 (List.replicate 112 0) := by
  have h1 := out_spec false (List.replicate 112 0)
  have h2 := out_spec true (List.replicate 112 0)
  rw [if_neg (by simp)] at h1
  rw [if_pos rfl] at h2
  rw [← h1, ← h2]
  constructor <;> decide +kernel

/-- The round constants and `irootFrom` in their definition. -/
theorem sha512_constants : k512 = primes.map (cubeFrac 64) ∧
    ∀ p ∈ primes, (irootFrom 3 (p * 2 ^ 192) 67 0) ^ 3 ≤ p * 2 ^ 192 ∧
      p * 2 ^ 192 < (irootFrom 3 (p * 2 ^ 192) 67 0 + 1) ^ 3 := by
  refine ⟨k512_eq, fun p hp => iroot_spec (by omega) ?_⟩
  have : p < 410 := List.mem_range.1 (List.mem_filter.1 hp).1
  calc p * 2 ^ 192 < 2 ^ 9 * 2 ^ 192 := Nat.mul_lt_mul_of_pos_right (by omega) (by positivity)
    _ = (2 ^ 67) ^ 3 := by norm_num

-- "abc", in two parts
example : (digest false (update (update (init false) [0x61]) [0x62, 0x63])).take 16 =
    [0xdd, 0xaf, 0x35, 0xa1, 0x93, 0x61, 0x7a, 0xba, 0xcc, 0x41, 0x73, 0x49, 0xae, 0x20, 0x41, 0x31] := by
  decide +kernel
example : (digest true (update (update (init true) [0x61]) [0x62, 0x63])).take 16 =
    [0xcb, 0x00, 0x75, 0x3f, 0x45, 0xa3, 0x5e, 0x8b, 0xb5, 0xa0, 0x3d, 0x69, 0x9a, 0xc6, 0x50, 0x07] := by
  decide +kernel

end Verif.Hash.Sha512
