import Verif.Lemmas.Hash.Md5
/-!
# C37: MD5
-/
namespace Verif.Hash.Md5
open Verif.HashS Verif.HashL

/-- C37: for every message and every way of splitting it into update calls of less than 4 GiB the digest is the one of
RFC 1321. -/
theorem md5_correct (chunks : List (List Byte)) (hc : ∀ d ∈ chunks, d.length < 2 ^ 32) :
    digest (chunks.foldl update init) = HashS.md5 chunks.flatten := by
  have : ∀ (cs : List (List Byte)) (c : Ctx) (m : List Byte), (∀ d ∈ cs, d.length < 2 ^ 32) → Rep c m →
      Rep (cs.foldl update c) (m ++ cs.flatten) := by
    intro cs
    induction cs with
    | nil => intro c m _ h; simpa using h
    | cons d cs ih =>
      intro c m hcs h
      rw [List.foldl_cons, List.flatten_cons, ← List.append_assoc]
      exact ih _ _ (fun x hx => hcs x (by simp [hx])) (update_rep (hcs d (by simp)) h)
  exact digest_spec (this chunks init [] hc init_rep)

/-- C37: the all-in-one function. -/
theorem md5_oneshot (msg : List Byte) (h : msg.length < 2 ^ 32) : Md5.md5 msg = HashS.md5 msg := by
  have := md5_correct [msg] (by simpa using h)
  rwa [List.flatten_singleton] at this

/-- The bound on the calls is needed: an update with `2^32` bytes leaves the length counter at zero. -/
theorem md5_long_update (d : List Byte) (h : d.length = 2 ^ 32) :
    (update init d).len0 = 0 ∧ (update init d).len1 = 0 := by
  unfold update
  rw [h]
  exact ⟨rfl, rfl⟩

-- "abc", in two parts
example : digest (update (update init [0x61]) [0x62, 0x63]) =
    [0x90, 0x01, 0x50, 0x98, 0x3c, 0xd2, 0x4f, 0xb0, 0xd6, 0x96, 0x3f, 0x7d, 0x28, 0xe1, 0x7f, 0x72] := by
  decide +kernel

end Verif.Hash.Md5
