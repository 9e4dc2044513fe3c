import Verif.Lemmas.Hash.Collide
import Verif.Props.Hash.Hmac
import Verif.Props.Hash.Sha512
/-!
# C108: collisions of the hash functions

The full statement: if two different messages of less than `2^61` bytes have the same digest, then the compression function of the standard maps
two different inputs to the same value.  It is false of SHA-512 and SHA-384 as computed by the code, whose collisions are given for
whole classes of messages (`sha512_collision`, `hmac_sha512_forgery`).
-/
namespace Verif.Hash
open Verif.HashS Verif.HashL
open Verif.Modes (encodeBE encodeBE_length hmacInit hmacUpdate hmacDigest)

theorem len_iff {a b : List Byte} (ha : a.length < 2 ^ 61) (hb : b.length < 2 ^ 61) : a.length = b.length ↔ encodeBE 8 (8 * a.length) = encodeBE 8 (8 * b.length) := by
  refine ⟨fun h => by rw [h], fun h => ?_⟩
  have := encodeBE_inj (by norm_num at ha ⊢; omega) (by norm_num at hb ⊢; omega) h
  omega

theorem regs_of_list {n : Nat} {p q : Regs n} (h : [p.a, p.b, p.c, p.d, p.e, p.f, p.g, p.h] = [q.a, q.b, q.c, q.d, q.e, q.f, q.g, q.h]) : p = q := by
  cases p; cases q; simpa using h

theorem regs5_of_list {p q : Regs5} (h : [p.a, p.b, p.c, p.d, p.e] = [q.a, q.b, q.c, q.d, q.e]) : p = q := by
  cases p; cases q; simpa using h

theorem regs4_of_list {p q : Regs4} (h : [p.a, p.b, p.c, p.d] = [q.a, q.b, q.c, q.d]) : p = q := by
  cases p; cases q; simpa using h

theorem regs64_bytes_inj {p q : Regs 64} (h : p.bytes = q.bytes) : p = q := by
  unfold Regs.bytes at h
  rw [show 64 / 8 = 8 from rfl] at h
  exact regs_of_list (words_inj (k := 8) (w := 64) (e := encodeBE 8) (encodeBE_length 8) (fun x y hx hy => encodeBE_inj (lt_of_lt_of_eq hx (by norm_num)) (lt_of_lt_of_eq hy (by norm_num))) _ _ h rfl)

/-- C108: SHA-256, for messages in any number of updates. -/
theorem sha256_collides (as bs : List (List Byte)) (ha : as.flatten.length < 2 ^ 61) (hb : bs.flatten.length < 2 ^ 61) (hne : as.flatten ≠ bs.flatten)
    (h : Sha256.digest (as.foldl Sha256.update Sha256.init) = Sha256.digest (bs.foldl Sha256.update Sha256.init)) :
    Collides 64 fun (H : Regs 32) b => compress p256 H (wordBE 4 b) := by
  rw [Sha256.sha256_correct, Sha256.sha256_correct, HashS.sha256, HashS.sha256] at h
  refine mdPad_collides (by omega) (encodeBE_length _ _) (encodeBE_length _ _) (len_iff ha hb) hne (iv := ivOf 32 fun i => primes.getD i 0) ?_
  exact regs_of_list (words_inj (k := 4) (w := 32) (e := encodeBE 4) (encodeBE_length 4) (fun x y hx hy => encodeBE_inj (by norm_num at hx ⊢; omega) (by norm_num at hy ⊢; omega)) _ _ h rfl)

/-- C108: SHA-1, for messages in any number of updates of less than 4 GiB. -/
theorem sha1_collides (as bs : List (List Byte)) (ca : ∀ d ∈ as, d.length < 2 ^ 32) (cb : ∀ d ∈ bs, d.length < 2 ^ 32) (ha : as.flatten.length < 2 ^ 61) (hb : bs.flatten.length < 2 ^ 61)
    (hne : as.flatten ≠ bs.flatten) (h : Sha1.digest (as.foldl Sha1.update Sha1.init) = Sha1.digest (bs.foldl Sha1.update Sha1.init)) :
    Collides 64 fun (H : Regs5) b => compress1 H (wordBE 4 b) := by
  rw [Sha1.sha1_correct _ ca, Sha1.sha1_correct _ cb, HashS.sha1, HashS.sha1] at h
  refine mdPad_collides (by omega) (encodeBE_length _ _) (encodeBE_length _ _) (len_iff ha hb) hne (iv := ⟨0x67452301#32, 0xefcdab89#32, 0x98badcfe#32, 0x10325476#32, 0xc3d2e1f0#32⟩) ?_
  exact regs5_of_list (words_inj (k := 4) (w := 32) (e := encodeBE 4) (encodeBE_length 4) (fun x y hx hy => encodeBE_inj (by norm_num at hx ⊢; omega) (by norm_num at hy ⊢; omega)) _ _ h rfl)

/-- C108: MD5, for messages in any number of updates of less than 4 GiB. -/
theorem md5_collides (as bs : List (List Byte)) (ca : ∀ d ∈ as, d.length < 2 ^ 32) (cb : ∀ d ∈ bs, d.length < 2 ^ 32) (ha : as.flatten.length < 2 ^ 61) (hb : bs.flatten.length < 2 ^ 61)
    (hne : as.flatten ≠ bs.flatten) (h : Md5.digest (as.foldl Md5.update Md5.init) = Md5.digest (bs.foldl Md5.update Md5.init)) :
    Collides 64 fun (H : Regs4) b => md5Compress H (wordLE b) := by
  rw [Md5.md5_correct _ ca, Md5.md5_correct _ cb, HashS.md5, HashS.md5] at h
  refine mdPad_collides (L := 8) (by omega) ((List.length_reverse).trans (encodeBE_length _ _)) ((List.length_reverse).trans (encodeBE_length _ _))
    (by rw [List.reverse_inj]; exact len_iff ha hb) hne (iv := ⟨0x67452301#32, 0xefcdab89#32, 0x98badcfe#32, 0x10325476#32⟩) ?_
  exact regs4_of_list (words_inj (k := 4) (w := 32) (e := fun x => (encodeBE 4 x).reverse) (fun x => by rw [List.length_reverse, encodeBE_length]) (fun x y hx hy e => encodeBE_inj (by norm_num at hx ⊢; omega) (by norm_num at hy ⊢; omega) (List.reverse_inj.1 e)) _ _ h rfl)

/-- Wang's colliding messages. -/
def wangA : List Byte := encodeBE 128 0xd131dd02c5e6eec4693d9a0698aff95c2fcab58712467eab4004583eb8fb7f8955ad340609f4b30283e488832571415a085125e8f7cdc99fd91dbdf280373c5bd8823e3156348f5bae6dacd436c919c6dd53e2b487da03fd02396306d248cda0e99f33420f577ee8ce54b67080a80d1ec69821bcb6a8839396f9652b6ff72a70
def wangB : List Byte := encodeBE 128 0xd131dd02c5e6eec4693d9a0698aff95c2fcab50712467eab4004583eb8fb7f8955ad340609f4b30283e4888325f1415a085125e8f7cdc99fd91dbd7280373c5bd8823e3156348f5bae6dacd436c919c6dd53e23487da03fd02396306d248cda0e99f33420f577ee8ce54b67080280d1ec69821bcb6a8839396f965ab6ff72a70

example : Collides 64 fun (H : Regs4) b => md5Compress H (wordLE b) :=
  md5_collides [wangA] [wangB.take 7, wangB.drop 7] (by decide +kernel) (by decide +kernel) (by decide +kernel) (by decide +kernel) (by decide +kernel) (by decide +kernel)

/-- C108, partial: SHA-512, for messages whose length modulo 128 is below 112.  Missing: the others, for which it is false. -/
theorem sha512_collides_partial (as bs : List (List Byte)) (ca : ∀ d ∈ as, d.length < 2 ^ 32) (cb : ∀ d ∈ bs, d.length < 2 ^ 32) (ha : as.flatten.length < 2 ^ 61) (hb : bs.flatten.length < 2 ^ 61)
    (ma : as.flatten.length % 128 < 112) (mb : bs.flatten.length % 128 < 112) (hne : as.flatten ≠ bs.flatten)
    (h : Sha512.digest false (as.foldl Sha512.update (Sha512.init false)) = Sha512.digest false (bs.foldl Sha512.update (Sha512.init false))) :
    Collides 128 fun (H : Regs 64) b => compress p512 H (wordBE 8 b) := by
  rw [Sha512.sha512_partial _ _ ca ma, Sha512.sha512_partial _ _ cb mb, if_neg (by simp), if_neg (by simp), HashS.sha512, HashS.sha512] at h
  refine mdPad_collides (L := 16) (by omega) (encodeBE_length _ (8 * as.flatten.length)) (encodeBE_length _ (8 * bs.flatten.length)) ⟨fun h => by rw [h], fun h => ?_⟩ hne (iv := ivOf 64 fun i => primes.getD i 0) ?_
  · have := encodeBE_inj (by norm_num at ha ⊢; omega) (by norm_num at hb ⊢; omega) h
    omega
  exact regs64_bytes_inj h

/-! ### Collisions of SHA-512 as computed by the code -/

/-- What is appended to a message of `n` bytes: the padding of the standard but for its last byte. -/
def ext512 (n : Nat) : List Byte := [0x80] ++ List.replicate (111 - n % 128) 0 ++ (encodeBE 16 (8 * n)).take 15

/-- C108, where it fails: every message whose length modulo 128 is 16, 48 or 80 has the digest of a longer one, in SHA-512 and SHA-384, however
the two are split into updates. -/
theorem sha512_collision (is384 : Bool) (as bs : List (List Byte)) (ca : ∀ d ∈ as, d.length < 2 ^ 32) (cb : ∀ d ∈ bs, d.length < 2 ^ 32)
    (h32 : as.flatten.length % 32 = 16) (hm : as.flatten.length % 128 < 112) (hb : bs.flatten = as.flatten ++ ext512 as.flatten.length) :
    as.flatten ≠ bs.flatten ∧
      Sha512.digest is384 (as.foldl Sha512.update (Sha512.init is384)) = Sha512.digest is384 (bs.foldl Sha512.update (Sha512.init is384)) := by
  generalize hn : as.flatten.length = n at h32 hm hb
  have hx : (ext512 n).length = 127 - n % 128 := by
    unfold ext512
    rw [List.length_append, List.length_append, List.length_replicate, List.length_take, encodeBE_length, List.length_singleton]; omega
  have hl : bs.flatten.length = n + (127 - n % 128) := by rw [hb, List.length_append, hx, hn]
  have h127 : bs.flatten.length % 128 = 127 := by omega
  refine ⟨fun h => ?_, ?_⟩
  · rw [h] at hn; omega
  rw [Sha512.digest_state (Sha512.updates_rep is384 as ca), Sha512.digest_state (Sha512.updates_rep is384 bs cb), hn, if_pos hm, if_neg (by omega), h127, hb]
  congr 2
  have e : encodeBE 16 (8 * n) = (encodeBE 16 (8 * n)).take 15 ++ [0x80] := by
    have h15 : (encodeBE 15 (8 * n / 256)).length = 15 := encodeBE_length _ _
    show encodeBE 15 (8 * n / 256) ++ [BitVec.ofNat 8 (8 * n)] = (encodeBE 15 (8 * n / 256) ++ [BitVec.ofNat 8 (8 * n)]).take 15 ++ [0x80]
    rw [List.take_left' h15]
    congr 2
    apply BitVec.eq_of_toNat_eq
    rw [BitVec.toNat_ofNat]
    show 8 * n % 256 = 128
    omega
  unfold mdPad ext512
  rw [hn, Verif.HashL.pad_zeros (by omega) rfl, if_pos (by omega), show 128 - (n % 128 + 1 + 16) = 111 - n % 128 by omega]
  conv_lhs => rw [e]
  simp only [List.append_assoc, Nat.sub_self, List.replicate_zero, List.append_nil]

/-- Sixteen zero bytes and a message of 127 bytes. -/
example : Sha512.digest false (Sha512.update (Sha512.init false) (List.replicate 16 0)) =
    Sha512.digest false (Sha512.update (Sha512.init false) (List.replicate 16 0 ++ ([0x80] ++ List.replicate 110 0))) := by
  have e : [0x80] ++ List.replicate 110 0 = ext512 16 := by decide +kernel
  rw [e]
  have := (sha512_collision false [List.replicate 16 0] [List.replicate 16 0 ++ ext512 16] (by simp) (by decide +kernel) (by simp) (by simp) (by simp)).2
  rwa [List.foldl_cons, List.foldl_nil, List.foldl_cons, List.foldl_nil] at this

/-- C108, where it fails: the tag of HMAC with SHA-512 or SHA-384 of a message whose length modulo 128 is 16, 80 or 112 is also the tag of a longer
message, which is made without the key. -/
theorem hmac_sha512_forgery (is384 : Bool) (key m : List Byte) (hlen : Nat) (hm : m.length < 2 ^ 31) (h32 : m.length % 32 = 16) (h48 : m.length % 128 ≠ 48)
    (c : Verif.Modes.Hmac Sha512.Ctx) (hc : hmacInit ⟨Sha512.init is384, Sha512.update, Sha512.digest is384⟩ hlen key = some c) :
    hmacDigest ⟨Sha512.init is384, Sha512.update, Sha512.digest is384⟩ (hmacUpdate ⟨Sha512.init is384, Sha512.update, Sha512.digest is384⟩ c m) =
      hmacDigest ⟨Sha512.init is384, Sha512.update, Sha512.digest is384⟩ (hmacUpdate ⟨Sha512.init is384, Sha512.update, Sha512.digest is384⟩ c (m ++ ext512 (64 + m.length))) := by
  have pad : ∀ k : List Byte, k.length ≤ 64 → (Verif.Modes.hmacPad 0x36 k).length = 64 := by
    intro k hk
    unfold Verif.Modes.hmacPad Verif.Modes.mxor
    simp only [List.length_append, List.length_zipWith, List.length_take, List.length_drop, List.length_replicate]
    omega
  obtain ⟨k, hk, hh⟩ : ∃ k : List Byte, k.length ≤ 64 ∧ c.hash = Sha512.update (Sha512.init is384) (Verif.Modes.hmacPad 0x36 k) := by
    unfold hmacInit at hc
    split at hc
    · next h => cases hc; exact ⟨key, h, rfl⟩
    · dsimp only at hc
      split at hc
      · cases hc
      · next h => cases hc; exact ⟨_, by omega, rfl⟩
  have hp := pad k hk
  have hx : (ext512 (64 + m.length)).length ≤ 127 := by
    unfold ext512
    rw [List.length_append, List.length_append, List.length_replicate, List.length_take, encodeBE_length, List.length_singleton]; omega
  have hl : ([Verif.Modes.hmacPad 0x36 k, m].flatten).length = 64 + m.length := by
    rw [List.flatten_cons, List.flatten_cons, List.flatten_nil, List.append_nil, List.length_append, hp]
  have key := (sha512_collision is384 [Verif.Modes.hmacPad 0x36 k, m] [Verif.Modes.hmacPad 0x36 k, m ++ ext512 (64 + m.length)]
    (by simp only [List.mem_cons, List.not_mem_nil, or_false, forall_eq_or_imp, forall_eq, hp]; omega)
    (by simp only [List.mem_cons, List.not_mem_nil, or_false, forall_eq_or_imp, forall_eq, hp, List.length_append]; omega)
    (by rw [hl]; omega) (by rw [hl]; omega) (by rw [hl]; simp [List.append_assoc])).2
  simp only [List.foldl_cons, List.foldl_nil] at key
  unfold hmacDigest hmacUpdate
  dsimp only
  rw [hh, key]

/-- A key of 20 bytes, a message of 16. -/
example : ∃ c, hmacInit ⟨Sha512.init false, Sha512.update, Sha512.digest false⟩ 64 (List.replicate 20 0x0b) = some c ∧
    hmacDigest ⟨Sha512.init false, Sha512.update, Sha512.digest false⟩ (hmacUpdate ⟨Sha512.init false, Sha512.update, Sha512.digest false⟩ c (List.replicate 16 0x41)) =
      hmacDigest ⟨Sha512.init false, Sha512.update, Sha512.digest false⟩ (hmacUpdate ⟨Sha512.init false, Sha512.update, Sha512.digest false⟩ c
        (List.replicate 16 0x41 ++ [0x80] ++ List.replicate 45 0 ++ [0x02])) := by
  refine ⟨_, rfl, ?_⟩
  have e : List.replicate 16 (0x41 : Byte) ++ [0x80] ++ List.replicate 45 0 ++ [0x02] = List.replicate 16 0x41 ++ ext512 (64 + (List.replicate 16 (0x41 : Byte)).length) := by decide
  rw [e]
  exact hmac_sha512_forgery false (List.replicate 20 0x0b) (List.replicate 16 0x41) 64 (by simp) (by simp) (by simp) _ rfl

end Verif.Hash
