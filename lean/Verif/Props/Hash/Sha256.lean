import Verif.Lemmas.Hash.Sha256
/-!
# C35: SHA-256
-/
namespace Verif.Hash.Sha256
open Verif.HashS Verif.HashL

/-- C35: for every message and every way of splitting it into update calls the digest is the one of FIPS 180-4,
with the 64-bit length modulo `2^64`. -/
theorem sha256_correct (chunks : List (List Byte)) :
    digest (chunks.foldl update init) = HashS.sha256 chunks.flatten := by
  have : ∀ (cs : List (List Byte)) (c : Ctx) (m : List Byte), Rep c m → Rep (cs.foldl update c) (m ++ cs.flatten) := by
    intro cs
    induction cs with
    | nil => intro c m h; simpa using h
    | cons d cs ih =>
      intro c m h
      rw [List.foldl_cons, List.flatten_cons, ← List.append_assoc]
      exact ih _ _ (update_rep d c m h)
  exact digest_spec (this chunks init [] init_rep)

/-- C35: the all-in-one function. -/
theorem sha256_oneshot (msg : List Byte) : Sha256.sha256 msg = HashS.sha256 msg := by
  have := sha256_correct [msg]
  rwa [List.flatten_singleton] at this

/-- C35: the round constants are the first 32 bits of the fractional parts of the cube roots of the first 64 primes,
and `irootFrom` in their definition is the whole part of the root. -/
theorem sha256_constants : k256 = (primes.take 64).map (cubeFrac 32) ∧
    ∀ p ∈ primes, (irootFrom 3 (p * 2 ^ 96) 35 0) ^ 3 ≤ p * 2 ^ 96 ∧
      p * 2 ^ 96 < (irootFrom 3 (p * 2 ^ 96) 35 0 + 1) ^ 3 := by
  refine ⟨k256_eq, fun p hp => iroot_spec (by omega) ?_⟩
  have : p < 410 := List.mem_range.1 (List.mem_filter.1 hp).1
  calc p * 2 ^ 96 < 2 ^ 9 * 2 ^ 96 := Nat.mul_lt_mul_of_pos_right (by omega) (by positivity)
    _ = (2 ^ 35) ^ 3 := by norm_num

-- "abc", in two parts
example : digest (update (update init [0x61]) [0x62, 0x63]) =
    [0xba, 0x78, 0x16, 0xbf, 0x8f, 0x01, 0xcf, 0xea, 0x41, 0x41, 0x40, 0xde, 0x5d, 0xae, 0x22, 0x23,
     0xb0, 0x03, 0x61, 0xa3, 0x96, 0x17, 0x7a, 0x9c, 0xb4, 0x10, 0xff, 0x61, 0xf2, 0x00, 0x15, 0xad] := by
  decide +kernel

end Verif.Hash.Sha256
