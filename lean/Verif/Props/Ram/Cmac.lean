import Verif.Lemmas.Ram.Cmac
import Verif.Props.Modes.AesModes
import Verif.Props.Ram.Hash
/-!
# C104: CMAC on buffers in memory
-/
namespace Verif.RamCmac
open Verif.Ram
open Verif.RamHash (message)
open Verif.Modes (cmacS)

/-- Where the parts of a CMAC computation may lie: the arrays of the context and of the functions, 16 bytes each, are owned and
apart from each other; the messages are apart from the context and from the array of `cry_cmac_update`; the tag is apart from the
member `mac` of the context.  The tag may lie over the messages, and over anything else. -/
structure Places (R : Ram) (A : Arrays) (calls : List (Nat × Nat)) (out : Nat) : Prop where
  owned : ∀ p ∈ [A.blk, A.mac, A.block, A.k1, A.k2, A.last, A.blank, out], R.Owned p 16
  apart : [A.blk, A.mac, A.block, A.k1, A.k2, A.last, A.blank].Pairwise fun p q => Apart p 16 q 16
  calls : ∀ q ∈ calls, R.Owned q.1 q.2 ∧ ∀ p ∈ [A.blk, A.mac, A.block], Apart p 16 q.1 q.2
  out : Apart out 16 A.mac 16

/-- C104: for every 16-byte block cipher, however the message is split into updates, no access is undefined, the tag is that of
RFC 4493, also in the context, and nothing changes but the tag and the arrays. -/
theorem ram_cmac {E : List Byte → List Byte} (hE : ∀ b, b.length = 16 → (E b).length = 16) {R : Ram} {A : Arrays}
    {calls : List (Nat × Nat)} {out : Nat} (hp : Places R A calls out) :
    ∃ R', cmac E A R calls out = some R' ∧
      Wrote R R' [(out, cmacS E (message R calls)), (A.mac, cmacS E (message R calls))]
        ([A.blk, A.mac, A.block, A.k1, A.k2, A.last, A.blank].map fun p => (p, 16)) := by
  refine cmac_eq hE (A := A) ?_ ?_ calls ?_ (hp.owned out (by simp)) hp.out
  · intro p h
    simp only [allRanges, List.mem_cons, List.not_mem_nil, or_false] at h
    rcases h with rfl | rfl | rfl | rfl | rfl | rfl | rfl <;> exact hp.owned _ (by simp)
  · exact List.pairwise_map (f := fun p => (p, 16)) (l := [A.blk, A.mac, A.block, A.k1, A.k2, A.last, A.blank]).2 hp.apart
  · refine fun q hq => ⟨(hp.calls q hq).1, fun r h => ?_⟩
    simp only [ranges, List.mem_cons, List.not_mem_nil, or_false] at h
    rcases h with rfl | rfl | rfl <;> exact (hp.calls q hq).2 _ (by simp)

/-- C104: AES-CMAC of RFC 4493. -/
theorem ram_aes_cmac {key : List Byte} (hk : Aes.KeySize key) {R : Ram} {A : Arrays} {calls : List (Nat × Nat)} {out : Nat}
    (hp : Places R A calls out) :
    ∃ c R', Aes.keySet key = some c ∧ cmac (Aes.encBlock c) A R calls out = some R' ∧
      Wrote R R' [(out, cmacS (AesS.encrypt key) (message R calls)), (A.mac, cmacS (AesS.encrypt key) (message R calls))]
        ([A.blk, A.mac, A.block, A.k1, A.k2, A.last, A.blank].map fun p => (p, 16)) := by
  obtain ⟨c, h1, he, -⟩ := Modes.aes_ctx_enc hk
  obtain ⟨R', e, w⟩ := ram_cmac (E := AesS.encrypt key) (fun b _ => Modes.aesS_length key b) hp
  exact ⟨c, R', h1, by rw [he]; exact e, w⟩

/-- C104: an update reads all the bytes of the message: if one of them may not be read, it is undefined. -/
theorem ram_cmac_reads (E : List Byte → List Byte) {R : Ram} (A : Arrays) (blklen : Nat) {p len : Nat} (h : ¬ R.Owned p len) :
    update E A R blklen p len = none :=
  Option.eq_none_iff_forall_ne_some.2 fun _ e => h (update_needs e)

-- two buffers, 33 bytes in all, the tag over the first of them
example : Places RamHash.exRam ⟨500, 516, 532, 548, 564, 580, 596⟩ [(100, 20), (200, 13), (0, 0)] 90 where
  owned := by
    intro p h
    apply RamHash.exRam_owned
    simp only [List.mem_cons, List.not_mem_nil, or_false] at h
    rcases h with rfl | rfl | rfl | rfl | rfl | rfl | rfl | rfl <;> decide
  apart := by decide
  calls := by
    intro q h
    simp only [List.mem_cons, List.not_mem_nil, or_false] at h
    rcases h with rfl | rfl | rfl
    · exact ⟨RamHash.exRam_owned (by decide), by decide⟩
    · exact ⟨RamHash.exRam_owned (by decide), by decide⟩
    · exact ⟨RamHash.exRam_owned (by decide), by decide⟩
  out := by decide

end Verif.RamCmac
