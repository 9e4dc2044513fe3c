import Verif.Spec.HmacB
import Verif.Props.Hash.Hmac
import Verif.Props.Hash.Sha512
/-!
# C110: HMAC with SHA-512 and SHA-384

The full statement: HMAC with these is that of RFC 2104, with the block of 128 bytes of the hash functions, for every key and message.  It is false: the code
has one block size, 64 (include/cry/hmac.h:11), for all hash functions (`hmac_sha512_wrong`).  What is computed instead, for every key and
message, is `hmac_sha512_partial`.
-/
namespace Verif.Hash
open Verif.Modes

theorem sha512_hash_length (is384 : Bool) (m : List Byte) : (Sha512.hash is384 m).length = if is384 then 48 else 64 := by
  have w : ∀ x, (write64be x).length = 8 := fun x => rfl
  unfold Sha512.hash Sha512.digest
  dsimp only
  generalize Sha512.update (Sha512.update _ _) _ = r
  cases is384
  · show (_ ++ _ ++ _ : List Byte).length = 64
    simp only [List.length_append, w]
  · show (_ ++ _ : List Byte).length = 48
    simp only [List.length_append, w]

theorem sha512_streams (is384 : Bool) : Streams ⟨Sha512.init is384, Sha512.update, Sha512.digest is384⟩ (Sha512.hash is384) (2 ^ 32 - 1) (Sha512.Rep is384) :=
  ⟨Sha512.init_rep is384, fun s m d h hl => Sha512.update_rep (by rw [List.length_append] at hl; omega) h, fun s m h hl => by
    have h' := Sha512.updates_rep is384 [m] (by simpa using by omega)
    rw [List.foldl_cons, List.foldl_nil, List.flatten_cons, List.flatten_nil, List.append_nil] at h'
    show Sha512.digest is384 s = Sha512.digest is384 _
    rw [Sha512.digest_state h, Sha512.digest_state h']⟩

/-- C110, partial: the construction of RFC 2104 with a block of 64 bytes and the hash as the code computes it (see C38), for every key and every sequence of
updates.  Missing: the block of 128 bytes. -/
theorem hmac_sha512_partial (is384 : Bool) (key : List Byte) (chunks : List (List Byte)) (hk : key.length < 2 ^ 32) (hm : chunks.flatten.length + 64 < 2 ^ 32) :
    ∃ c, hmacInit ⟨Sha512.init is384, Sha512.update, Sha512.digest is384⟩ (if is384 then 48 else 64) key = some c ∧
      hmacDigest ⟨Sha512.init is384, Sha512.update, Sha512.digest is384⟩ (chunks.foldl (hmacUpdate ⟨Sha512.init is384, Sha512.update, Sha512.digest is384⟩) c) =
        hmacB 64 (Sha512.hash is384) key chunks.flatten :=
  hmac_correct (sha512_streams is384) _ (sha512_hash_length is384) (by split <;> omega) key chunks (by omega) (by omega) (by split <;> omega)

/-- A key longer than the block, and a message in two parts. -/
example := hmac_sha512_partial true (List.replicate 131 0xaa) [[0x48, 0x69], [0x21]] (by rw [List.length_replicate]; omega) (by simp)

theorem sha512_hash_right (is384 : Bool) (m : List Byte) (h : m.length < 2 ^ 32) (hm : m.length % 128 < 112) :
    Sha512.hash is384 m = if is384 then HashS.sha384 m else HashS.sha512 m := by
  have := Sha512.sha512_partial is384 [m] (by simpa using h) (by simpa using hm)
  rwa [List.foldl_cons, List.foldl_nil, List.flatten_cons, List.flatten_nil, List.append_nil] at this

theorem hmac_inner512_64 : Sha512.hash false (List.replicate 64 0x36) = [141, 193, 155, 123, 164, 39, 95, 79, 28, 214, 189, 68, 40, 193, 60, 194, 176, 54, 172, 31, 230, 67, 48, 68, 110, 62, 31, 143, 79, 206, 32, 117, 150, 153, 87, 115, 25, 251, 18, 35, 200, 48, 56, 54, 8, 248, 145, 206, 127, 131, 160, 90, 183, 208, 52, 117, 207, 105, 133, 247, 226, 114, 252, 133] := by decide +kernel
theorem hmac_outer512_64 : Sha512.hash false (List.replicate 64 0x5c ++ [141, 193, 155, 123, 164, 39, 95, 79, 28, 214, 189, 68, 40, 193, 60, 194, 176, 54, 172, 31, 230, 67, 48, 68, 110, 62, 31, 143, 79, 206, 32, 117, 150, 153, 87, 115, 25, 251, 18, 35, 200, 48, 56, 54, 8, 248, 145, 206, 127, 131, 160, 90, 183, 208, 52, 117, 207, 105, 133, 247, 226, 114, 252, 133]) =
    [68, 216, 7, 91, 252, 203, 202, 9, 175, 44, 154, 192, 135, 185, 62, 11, 14, 171, 192, 159, 154, 126, 50, 94, 132, 29, 205, 32, 87, 198, 60, 15, 160, 33, 72, 56, 108, 99, 59, 20, 214, 142, 52, 254, 66, 217, 141, 7, 218, 209, 180, 71, 77, 114, 184, 11, 85, 90, 4, 106, 12, 176, 213, 26] := by decide +kernel
theorem hmac_inner512_128 : Sha512.hash false (List.replicate 128 0x36) = [29, 55, 75, 237, 66, 5, 172, 62, 213, 255, 243, 142, 65, 56, 122, 88, 189, 45, 153, 156, 189, 121, 1, 223, 120, 219, 49, 23, 194, 11, 218, 69, 22, 123, 198, 215, 93, 49, 76, 184, 171, 13, 15, 6, 244, 31, 150, 120, 144, 39, 35, 117, 200, 195, 199, 19, 180, 173, 252, 194, 254, 12, 242, 37] := by decide +kernel
theorem hmac_outer512_128 : Sha512.hash false (List.replicate 128 0x5c ++ [29, 55, 75, 237, 66, 5, 172, 62, 213, 255, 243, 142, 65, 56, 122, 88, 189, 45, 153, 156, 189, 121, 1, 223, 120, 219, 49, 23, 194, 11, 218, 69, 22, 123, 198, 215, 93, 49, 76, 184, 171, 13, 15, 6, 244, 31, 150, 120, 144, 39, 35, 117, 200, 195, 199, 19, 180, 173, 252, 194, 254, 12, 242, 37]) =
    [185, 54, 206, 232, 108, 159, 135, 170, 93, 60, 111, 46, 132, 203, 90, 66, 57, 165, 254, 80, 72, 10, 110, 198, 107, 112, 171, 91, 31, 74, 198, 115, 12, 108, 81, 84, 33, 179, 39, 236, 29, 105, 64, 46, 83, 223, 180, 154, 215, 56, 30, 176, 103, 179, 56, 253, 123, 12, 178, 34, 71, 34, 93, 71] := by decide +kernel
theorem hmac_inner384_64 : Sha512.hash true (List.replicate 64 0x36) = [249, 182, 156, 124, 92, 93, 69, 185, 234, 160, 76, 186, 104, 88, 247, 246, 32, 60, 45, 38, 54, 59, 56, 16, 78, 73, 44, 161, 230, 227, 157, 6, 82, 160, 6, 117, 241, 209, 22, 186, 166, 26, 192, 10, 132, 206, 2, 233] := by decide +kernel
theorem hmac_outer384_64 : Sha512.hash true (List.replicate 64 0x5c ++ [249, 182, 156, 124, 92, 93, 69, 185, 234, 160, 76, 186, 104, 88, 247, 246, 32, 60, 45, 38, 54, 59, 56, 16, 78, 73, 44, 161, 230, 227, 157, 6, 82, 160, 6, 117, 241, 209, 22, 186, 166, 26, 192, 10, 132, 206, 2, 233]) =
    [233, 70, 66, 135, 178, 226, 255, 101, 34, 144, 192, 192, 129, 115, 60, 129, 158, 19, 222, 80, 190, 0, 163, 29, 24, 155, 239, 225, 232, 242, 53, 103, 228, 12, 157, 193, 201, 7, 223, 247, 19, 245, 15, 32, 56, 242, 101, 6] := by decide +kernel
theorem hmac_inner384_128 : Sha512.hash true (List.replicate 128 0x36) = [152, 65, 11, 235, 86, 32, 224, 25, 213, 185, 101, 253, 226, 127, 148, 153, 30, 252, 125, 195, 11, 213, 120, 24, 32, 227, 151, 27, 141, 75, 14, 249, 93, 171, 46, 228, 151, 137, 104, 138, 117, 4, 149, 224, 158, 172, 144, 65] := by decide +kernel
theorem hmac_outer384_128 : Sha512.hash true (List.replicate 128 0x5c ++ [152, 65, 11, 235, 86, 32, 224, 25, 213, 185, 101, 253, 226, 127, 148, 153, 30, 252, 125, 195, 11, 213, 120, 24, 32, 227, 151, 27, 141, 75, 14, 249, 93, 171, 46, 228, 151, 137, 104, 138, 117, 4, 149, 224, 158, 172, 144, 65]) =
    [108, 31, 46, 233, 56, 250, 210, 226, 75, 217, 18, 152, 71, 67, 130, 202, 33, 140, 117, 219, 61, 131, 225, 20, 179, 212, 54, 119, 118, 209, 77, 53, 81, 40, 158, 117, 232, 32, 156, 212, 183, 146, 48, 40, 64, 35, 74, 220] := by decide +kernel

theorem xorB_zeros (B : Nat) (x : Byte) : xorB (List.replicate B 0) (List.replicate B x) = List.replicate B x := by
  unfold xorB
  rw [List.zipWith_replicate']
  exact congrArg _ BitVec.zero_xor

/-- C110, where it fails: the empty key and the empty message. -/
theorem hmac_sha512_wrong (is384 : Bool) : ∃ c, hmacInit ⟨Sha512.init is384, Sha512.update, Sha512.digest is384⟩ (if is384 then 48 else 64) [] = some c ∧
    hmacDigest ⟨Sha512.init is384, Sha512.update, Sha512.digest is384⟩ c ≠ hmacB 128 (if is384 then HashS.sha384 else HashS.sha512) [] [] := by
  obtain ⟨c, h1, h2⟩ := hmac_sha512_partial is384 [] [] (by simp) (by simp)
  refine ⟨c, h1, ?_⟩
  rw [List.foldl_nil, List.flatten_nil] at h2
  have hB : ∀ (B : Nat) (H : List Byte → List Byte), hmacB B H [] [] = H (List.replicate B 0x5c ++ H (List.replicate B 0x36)) := by
    intro B H
    unfold hmacB
    rw [List.length_nil, if_pos (Nat.zero_le _)]
    dsimp only
    rw [List.nil_append, List.length_nil, Nat.sub_zero, xorB_zeros, xorB_zeros, List.append_nil]
  rw [h2, hB, hB]
  cases is384
  · rw [if_neg (by simp), hmac_inner512_64, hmac_outer512_64]
    have e1 := sha512_hash_right false (List.replicate 128 0x36) (by rw [List.length_replicate]; omega) (by rw [List.length_replicate]; omega)
    have e2 := sha512_hash_right false (List.replicate 128 0x5c ++ Sha512.hash false (List.replicate 128 0x36))
      (by rw [List.length_append, List.length_replicate, sha512_hash_length]; simp) (by rw [List.length_append, List.length_replicate, sha512_hash_length]; simp)
    rw [if_neg (by simp)] at e1 e2
    rw [← e1, ← e2, hmac_inner512_128, hmac_outer512_128]
    decide
  · rw [if_pos rfl, hmac_inner384_64, hmac_outer384_64]
    have e1 := sha512_hash_right true (List.replicate 128 0x36) (by rw [List.length_replicate]; omega) (by rw [List.length_replicate]; omega)
    have e2 := sha512_hash_right true (List.replicate 128 0x5c ++ Sha512.hash true (List.replicate 128 0x36))
      (by rw [List.length_append, List.length_replicate, sha512_hash_length]; simp) (by rw [List.length_append, List.length_replicate, sha512_hash_length]; simp)
    rw [if_pos rfl] at e1 e2
    rw [← e1, ← e2, hmac_inner384_128, hmac_outer384_128]
    decide

end Verif.Hash
