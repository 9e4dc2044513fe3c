import Verif.Props.Hash.HmacWide
/-!
# C119: what counts of an HMAC key, and what equal tags mean
-/
namespace Verif.Hash
open Verif.Modes

/-- `cry_hmac_init`, any updates, `cry_hmac_digest`. -/
def tagOf {σ : Type} (h : HashItf σ) (hashLen : Nat) (key : List Byte) (chunks : List (List Byte)) : Option (List Byte) :=
  (hmacInit h hashLen key).map fun c => hmacDigest h (chunks.foldl (hmacUpdate h) c)

/-- The key as RFC 2104 uses it: 64 bytes. -/
def macKey (H : List Byte → List Byte) (key : List Byte) : List Byte :=
  let k := if key.length ≤ 64 then key else H key
  k ++ List.replicate (64 - k.length) 0

/-- What the inner and the outer hash are taken of. -/
def innerOf (H : List Byte → List Byte) (key msg : List Byte) : List Byte := xorB (macKey H key) (List.replicate 64 0x36) ++ msg
def outerOf (H : List Byte → List Byte) (key msg : List Byte) : List Byte :=
  xorB (macKey H key) (List.replicate 64 0x5c) ++ H (innerOf H key msg)

/-- Two different inputs of the hash function with the same hash. -/
def Clash (H : List Byte → List Byte) (x y : List Byte) : Prop := x ≠ y ∧ H x = H y

/-- The claims for a hash function with messages and keys up to `N` bytes. -/
structure KeyLaws {σ : Type} (h : HashItf σ) (hashLen : Nat) (H : List Byte → List Byte) (N : Nat) : Prop where
  /-- Zero bytes behind a key, up to 64 bytes, do not count. -/
  zeros : ∀ (key : List Byte) (n : Nat) (chunks : List (List Byte)), key.length + n ≤ 64 → 64 + chunks.flatten.length ≤ N →
    tagOf h hashLen (key ++ List.replicate n 0) chunks = tagOf h hashLen key chunks
  /-- The hash of a long key does for the key. -/
  long : ∀ (key : List Byte) (chunks : List (List Byte)), 64 < key.length → key.length ≤ N → 64 + chunks.flatten.length ≤ N →
    tagOf h hashLen key chunks = tagOf h hashLen (H key) chunks
  /-- The tag depends on the message, not on its parts. -/
  parts : ∀ (key : List Byte) (chunks chunks' : List (List Byte)), key.length ≤ N → 64 + chunks.flatten.length ≤ N →
    chunks.flatten = chunks'.flatten → tagOf h hashLen key chunks = tagOf h hashLen key chunks'
  /-- Equal tags: the same key and message, or a clash of the hash function in the inner or the outer hash. -/
  equal : ∀ (key key' : List Byte) (chunks chunks' : List (List Byte)), key.length ≤ N → key'.length ≤ N →
    64 + chunks.flatten.length ≤ N → 64 + chunks'.flatten.length ≤ N → tagOf h hashLen key chunks = tagOf h hashLen key' chunks' →
    (macKey H key = macKey H key' ∧ chunks.flatten = chunks'.flatten) ∨
      Clash H (innerOf H key chunks.flatten) (innerOf H key' chunks'.flatten) ∨
      Clash H (outerOf H key chunks.flatten) (outerOf H key' chunks'.flatten)

theorem hmacS_of (H : List Byte → List Byte) (key msg : List Byte) : hmacS H key msg = H (outerOf H key msg) := rfl

theorem macKey_length {H : List Byte → List Byte} (hH : ∀ m, (H m).length ≤ 64) (key : List Byte) : (macKey H key).length = 64 := by
  unfold macKey
  dsimp only
  rw [List.length_append, List.length_replicate]
  have := hH key
  split_ifs <;> omega

theorem macKey_zeros (H : List Byte → List Byte) (key : List Byte) (n : Nat) (h : key.length + n ≤ 64) :
    macKey H (key ++ List.replicate n 0) = macKey H key := by
  unfold macKey
  dsimp only
  rw [if_pos (by rw [List.length_append, List.length_replicate]; exact h), if_pos (by omega), List.append_assoc, List.replicate_append_replicate,
    List.length_append, List.length_replicate]
  congr 2
  omega

theorem macKey_long {H : List Byte → List Byte} (hH : ∀ m, (H m).length ≤ 64) (key : List Byte) (h : 64 < key.length) :
    macKey H (H key) = macKey H key := by
  unfold macKey
  dsimp only
  rw [if_neg (by omega : ¬ key.length ≤ 64), if_pos (hH key)]

theorem xorB_pad_inj {v : Byte} : ∀ {a b : List Byte} {n : Nat}, a.length = n → b.length = n →
    xorB a (List.replicate n v) = xorB b (List.replicate n v) → a = b
  | [], [], _, _, _, _ => rfl
  | [], _ :: _, _, h, h', _ => by subst h; simp at h'
  | _ :: _, [], _, h, h', _ => by subst h'; simp at h
  | x :: a, y :: b, 0, h, _, _ => by simp at h
  | x :: a, y :: b, n + 1, h, h', e => by
    rw [List.replicate_succ, xorB, xorB, List.zipWith_cons_cons, List.zipWith_cons_cons, List.cons.injEq] at e
    rw [(BitVec.xor_left_inj v).1 e.1, xorB_pad_inj (n := n) (by simpa using h) (by simpa using h') e.2]

theorem outer_equal {H : List Byte → List Byte} (hH : ∀ m, (H m).length ≤ 64) {key key' msg msg' : List Byte}
    (e : hmacS H key msg = hmacS H key' msg') : (macKey H key = macKey H key' ∧ msg = msg') ∨
      Clash H (innerOf H key msg) (innerOf H key' msg') ∨ Clash H (outerOf H key msg) (outerOf H key' msg') := by
  have hl := macKey_length hH key
  have hl' := macKey_length hH key'
  by_cases ho : outerOf H key msg = outerOf H key' msg'
  · have hi := List.append_inj ho (by rw [xorB_length, xorB_length, hl, hl'])
    have hk := xorB_pad_inj hl hl' hi.1
    by_cases hm : msg = msg'
    · exact Or.inl ⟨hk, hm⟩
    · refine Or.inr (Or.inl ⟨fun h => hm ?_, hi.2⟩)
      unfold innerOf at h
      rw [hk] at h
      exact List.append_cancel_left h
  · exact Or.inr (Or.inr ⟨ho, e⟩)

theorem keyLaws {σ : Type} {h : HashItf σ} {H : List Byte → List Byte} {N : Nat} {Rep : σ → List Byte → Prop} (hs : Streams h H N Rep)
    (hashLen : Nat) (hH : ∀ m, (H m).length = hashLen) (hl : hashLen ≤ 64) (hN : 128 ≤ N) : KeyLaws h hashLen H N := by
  have tag : ∀ key chunks, key.length ≤ N → 64 + chunks.flatten.length ≤ N → tagOf h hashLen key chunks = some (hmacS H key chunks.flatten) := by
    intro key chunks h1 h2
    obtain ⟨c, e1, e2⟩ := hmac_correct hs hashLen hH hl key chunks h1 h2 (by omega)
    rw [tagOf, e1, Option.map_some, e2]
  have hH' : ∀ m, (H m).length ≤ 64 := fun m => by rw [hH]; exact hl
  refine ⟨fun key n chunks h1 h2 => ?_, fun key chunks h1 h2 h3 => ?_, fun key chunks chunks' h1 h2 h3 => ?_,
    fun key key' chunks chunks' h1 h2 h3 h4 e => ?_⟩
  · rw [tag _ _ (by rw [List.length_append, List.length_replicate]; omega) h2, tag _ _ (by omega) h2, hmacS_of, hmacS_of]
    unfold outerOf innerOf
    rw [macKey_zeros H key n h1]
  · rw [tag _ _ h2 h3, tag _ _ (by have := hH' key; omega) h3, hmacS_of, hmacS_of]
    unfold outerOf innerOf
    rw [macKey_long hH' key h1]
  · rw [tag _ _ h1 h2, tag _ _ h1 (by rw [← h3]; exact h2), h3]
  · rw [tag _ _ h1 h3, tag _ _ h2 h4, Option.some.injEq] at e
    exact outer_equal hH' e

/-- C119: HMAC with SHA-256 and any lengths. -/
theorem hmac_keys_sha256 (N : Nat) (hN : 128 ≤ N) : KeyLaws ⟨Sha256.init, Sha256.update, Sha256.digest⟩ 32 HashS.sha256 N :=
  keyLaws (sha256_streams N) 32 (fun m => by simp [HashS.sha256, HashS.Regs.bytes, encodeBE_length]) (by omega) hN

/-- C119: HMAC with SHA-1 below 2^32 bytes. -/
theorem hmac_keys_sha1 : KeyLaws ⟨Sha1.init, Sha1.update, Sha1.digest⟩ 20 HashS.sha1 (2 ^ 32 - 1) :=
  keyLaws sha1_streams 20 (fun m => by simp [HashS.sha1, encodeBE_length]) (by omega) (by omega)

/-- C119: HMAC with MD5 below 2^32 bytes. -/
theorem hmac_keys_md5 : KeyLaws ⟨Md5.init, Md5.update, Md5.digest⟩ 16 HashS.md5 (2 ^ 32 - 1) :=
  keyLaws md5_streams 16 (fun m => by simp [HashS.md5, encodeBE_length]) (by omega) (by omega)

/-- C119: HMAC with SHA-512 and SHA-384 as the code computes them (C38), below 2^32 bytes. -/
theorem hmac_keys_sha512 (is384 : Bool) : KeyLaws ⟨Sha512.init is384, Sha512.update, Sha512.digest is384⟩ (if is384 then 48 else 64)
    (Sha512.hash is384) (2 ^ 32 - 1) :=
  keyLaws (sha512_streams is384) _ (sha512_hash_length is384) (by split <;> omega) (by omega)

-- a key with zero bytes behind it, a message in two parts
example : tagOf ⟨Sha256.init, Sha256.update, Sha256.digest⟩ 32 [1, 2, 3, 0, 0] [[4], [5, 6]] =
    tagOf ⟨Sha256.init, Sha256.update, Sha256.digest⟩ 32 [1, 2, 3] [[4], [5, 6]] :=
  (hmac_keys_sha256 128 (le_refl _)).zeros [1, 2, 3] 2 [[4], [5, 6]] (by decide) (by decide)

-- the keys above are different and used as the same 64 bytes
example : ([1, 2, 3, 0, 0] : List Byte) ≠ [1, 2, 3] ∧ macKey HashS.sha256 [1, 2, 3, 0, 0] = macKey HashS.sha256 [1, 2, 3] := by
  refine ⟨by decide, macKey_zeros _ [1, 2, 3] 2 (by decide)⟩

end Verif.Hash
