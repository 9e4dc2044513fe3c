import Verif.Lemmas.Hash.Sha1
/-!
# C36: SHA-1
-/
namespace Verif.Hash.Sha1
open Verif.HashS Verif.HashL

/-- C36: for every message and every way of splitting it into update calls of less than 4 GiB the digest is the one of
FIPS 180-4, with the 64-bit length modulo `2^64`. -/
theorem sha1_correct (chunks : List (List Byte)) (hc : ∀ d ∈ chunks, d.length < 2 ^ 32) :
    digest (chunks.foldl update init) = HashS.sha1 chunks.flatten := by
  have : ∀ (cs : List (List Byte)) (c : Ctx) (m : List Byte), (∀ d ∈ cs, d.length < 2 ^ 32) → Rep c m →
      Rep (cs.foldl update c) (m ++ cs.flatten) := by
    intro cs
    induction cs with
    | nil => intro c m _ h; simpa using h
    | cons d cs ih =>
      intro c m hcs h
      rw [List.foldl_cons, List.flatten_cons, ← List.append_assoc]
      exact ih _ _ (fun x hx => hcs x (by simp [hx])) (update_rep (hcs d (by simp)) h)
  exact digest_spec (this chunks init [] hc init_rep)

/-- C36: the all-in-one function. -/
theorem sha1_oneshot (msg : List Byte) (h : msg.length < 2 ^ 32) : Sha1.sha1 msg = HashS.sha1 msg := by
  have := sha1_correct [msg] (by simpa using h)
  rwa [List.flatten_singleton] at this

/-- The bound on the calls is needed: an update with `2^32` bytes leaves the length counter at zero. -/
theorem sha1_long_update (d : List Byte) (h : d.length = 2 ^ 32) :
    (update init d).len0 = 0 ∧ (update init d).len1 = 0 := by
  unfold update Blk.update
  rw [h]
  dsimp only
  rw [if_neg (by norm_num)]
  have h0 : ((init.len0 &&& BitVec.ofNat 32 (64 - 1)).toNat ≠ 0 ∧
      64 - (init.len0 &&& BitVec.ofNat 32 (64 - 1)).toNat ≤ 2 ^ 32) ↔ False := by decide +kernel
  rw [if_neg (by rw [h0]; exact id)]
  exact ⟨rfl, rfl⟩

-- "abc", in two parts
example : digest (update (update init [0x61]) [0x62, 0x63]) =
    [0xa9, 0x99, 0x3e, 0x36, 0x47, 0x06, 0x81, 0x6a, 0xba, 0x3e, 0x25, 0x71, 0x78, 0x50, 0xc2, 0x6c, 0x9c, 0xd0, 0xd8,
     0x9d] := by
  decide +kernel

end Verif.Hash.Sha1
