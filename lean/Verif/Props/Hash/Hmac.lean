import Verif.Props.Hash.Sha1
import Verif.Props.Hash.Sha256
import Verif.Props.Hash.Md5
import Verif.Props.Modes.Mac
/-!
# C30 with the hash functions of the library
-/
namespace Verif.Hash
open Verif.Modes

theorem sha256_streams (N : Nat) :
    Streams ⟨Sha256.init, Sha256.update, Sha256.digest⟩ HashS.sha256 N Sha256.Rep :=
  ⟨Sha256.init_rep, fun s m d h _ => Sha256.update_rep d s m h, fun _ _ h _ => Sha256.digest_spec h⟩

theorem sha1_streams : Streams ⟨Sha1.init, Sha1.update, Sha1.digest⟩ HashS.sha1 (2 ^ 32 - 1) Sha1.Rep :=
  ⟨Sha1.init_rep, fun s m d h hl => Sha1.update_rep (by rw [List.length_append] at hl; omega) h,
    fun _ _ h _ => Sha1.digest_spec h⟩

theorem md5_streams : Streams ⟨Md5.init, Md5.update, Md5.digest⟩ HashS.md5 (2 ^ 32 - 1) Md5.Rep :=
  ⟨Md5.init_rep, fun s m d h hl => Md5.update_rep (by rw [List.length_append] at hl; omega) h,
    fun _ _ h _ => Md5.digest_spec h⟩

/-- HMAC-SHA-256: for every key and every sequence of updates. -/
theorem hmac_sha256 (key : List Byte) (chunks : List (List Byte)) :
    ∃ c, hmacInit ⟨Sha256.init, Sha256.update, Sha256.digest⟩ 32 key = some c ∧
      hmacDigest ⟨Sha256.init, Sha256.update, Sha256.digest⟩
        (chunks.foldl (hmacUpdate ⟨Sha256.init, Sha256.update, Sha256.digest⟩) c) =
        hmacS HashS.sha256 key chunks.flatten :=
  hmac_correct (sha256_streams (key.length + 96 + chunks.flatten.length)) 32
    (fun m => by simp [HashS.sha256, HashS.Regs.bytes, encodeBE_length]) (by omega) key chunks (by omega) (by omega)
    (by omega)

/-- HMAC-SHA-1: for every key and every sequence of updates below 4 GiB. -/
theorem hmac_sha1 (key : List Byte) (chunks : List (List Byte)) (hk : key.length < 2 ^ 32)
    (hm : chunks.flatten.length + 64 < 2 ^ 32) :
    ∃ c, hmacInit ⟨Sha1.init, Sha1.update, Sha1.digest⟩ 20 key = some c ∧
      hmacDigest ⟨Sha1.init, Sha1.update, Sha1.digest⟩
        (chunks.foldl (hmacUpdate ⟨Sha1.init, Sha1.update, Sha1.digest⟩) c) =
        hmacS HashS.sha1 key chunks.flatten :=
  hmac_correct sha1_streams 20 (fun m => by simp [HashS.sha1, encodeBE_length]) (by omega) key chunks (by omega)
    (by omega) (by omega)

/-- HMAC-MD5: for every key and every sequence of updates below 4 GiB. -/
theorem hmac_md5 (key : List Byte) (chunks : List (List Byte)) (hk : key.length < 2 ^ 32)
    (hm : chunks.flatten.length + 64 < 2 ^ 32) :
    ∃ c, hmacInit ⟨Md5.init, Md5.update, Md5.digest⟩ 16 key = some c ∧
      hmacDigest ⟨Md5.init, Md5.update, Md5.digest⟩
        (chunks.foldl (hmacUpdate ⟨Md5.init, Md5.update, Md5.digest⟩) c) =
        hmacS HashS.md5 key chunks.flatten :=
  hmac_correct md5_streams 16 (fun m => by simp [HashS.md5, encodeBE_length]) (by omega) key chunks (by omega)
    (by omega) (by omega)

-- RFC 4231, test case 2
example : (hmacInit ⟨Sha256.init, Sha256.update, Sha256.digest⟩ 32 [0x4a, 0x65, 0x66, 0x65]).map (fun c =>
    (hmacDigest ⟨Sha256.init, Sha256.update, Sha256.digest⟩
      (hmacUpdate ⟨Sha256.init, Sha256.update, Sha256.digest⟩ c
        [0x77, 0x68, 0x61, 0x74, 0x20, 0x64, 0x6f, 0x20, 0x79, 0x61, 0x20, 0x77, 0x61, 0x6e, 0x74, 0x20, 0x66, 0x6f, 0x72,
         0x20, 0x6e, 0x6f, 0x74, 0x68, 0x69, 0x6e, 0x67, 0x3f])).take 4) = some [0x5b, 0xdc, 0xc1, 0x46] := by
  decide +kernel

end Verif.Hash
