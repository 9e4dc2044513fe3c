import Verif.Lemmas.Ram.Hmac
import Verif.Lemmas.Ram.HashNeeds
/-!
# C103: hash functions and HMAC on buffers in memory
-/
namespace Verif.RamHash
open Verif.Ram
open Verif.Modes (hmacS)

/-- The bytes of the given buffers, one after the other. -/
def message (R : Ram) (calls : List (Nat × Nat)) : List Byte := (calls.map fun q => R.bytes q.1 q.2).flatten

/-- The buffers may be read, do not touch the range of `B` bytes at `dat`, and have less than `N` bytes each. -/
def Readable (R : Ram) (calls : List (Nat × Nat)) (dat B N : Nat) : Prop :=
  ∀ q ∈ calls, R.Owned q.1 q.2 ∧ Apart dat B q.1 q.2 ∧ q.2 < N

/-! ### Hash functions -/

/-- C103: SHA-256 over any buffers outside of the context, the digest at any place outside of the context, also over the
message: no access is undefined, the digest is the one of FIPS 180-4, the array of the context ends cleared, and no other
byte of the memory changes. -/
theorem ram_sha256 (R : Ram) (dat out : Nat) (calls : List (Nat × Nat)) (hd : R.Owned dat 64) (ho : R.Owned out 32)
    (hap : Apart out 32 dat 64) (hc : ∀ q ∈ calls, R.Owned q.1 q.2 ∧ Apart dat 64 q.1 q.2) :
    ∃ R', hash (sha256Itf dat) R calls out = some R' ∧
      Wrote R R' [(out, HashS.sha256 (message R calls)), (dat, List.replicate 64 0)] [] := by
  obtain ⟨N, hN⟩ : ∃ N, ∀ q ∈ calls, q.2 ≤ N := by
    clear hc
    induction calls with
    | nil => exact ⟨0, by simp⟩
    | cons q qs ih =>
      obtain ⟨N, h⟩ := ih
      refine ⟨max q.2 N, fun x hx => ?_⟩
      rcases List.mem_cons.1 hx with rfl | hx
      · exact le_max_left ..
      · exact (h x hx).trans (le_max_right ..)
  exact hash_computes (sha256_computes dat N) hd (by simp [AllOwned]) (by simp [AllApart]) ho hap calls
    fun q hq => ⟨(hc q hq).1, (hc q hq).2, hN q hq⟩

/-- C103: SHA-1, the local arrays of the digest function lying at `pad` and `msg`. -/
theorem ram_sha1 (R : Ram) (dat pad msg out : Nat) (calls : List (Nat × Nat))
    (hown : AllOwned R [(dat, 64), (pad, 64), (msg, 8), (out, 20)]) (hl : AllApart [(dat, 64), (pad, 64), (msg, 8)])
    (hap : Apart out 20 dat 64) (hc : Readable R calls dat 64 (2 ^ 32)) :
    ∃ R', hash (sha1Itf dat pad msg) R calls out = some R' ∧
      Wrote R R' [(out, HashS.sha1 (message R calls)), (dat, List.replicate 64 0)] [(pad, 64), (msg, 8)] :=
  hash_computes sha1_computes (hown (dat, 64) (by simp))
    (fun p hp => hown p (by simp only [List.mem_cons, List.not_mem_nil, or_false] at hp ⊢; tauto)) hl
    (hown (out, 20) (by simp)) hap calls fun q hq => ⟨(hc q hq).1, (hc q hq).2.1, by have := (hc q hq).2.2; omega⟩

/-- C103: MD5. -/
theorem ram_md5 (R : Ram) (dat pad out : Nat) (calls : List (Nat × Nat))
    (hown : AllOwned R [(dat, 64), (pad, 64), (out, 16)]) (hl : Apart dat 64 pad 64)
    (hap : Apart out 16 dat 64) (hc : Readable R calls dat 64 (2 ^ 32)) :
    ∃ R', hash (md5Itf dat pad) R calls out = some R' ∧
      Wrote R R' [(out, HashS.md5 (message R calls)), (dat, List.replicate 64 0)] [(pad, 64)] :=
  hash_computes md5_computes (hown (dat, 64) (by simp))
    (fun p hp => hown p (by simp only [List.mem_cons, List.not_mem_nil, or_false] at hp ⊢; tauto))
    (by simpa [AllApart] using hl) (hown (out, 16) (by simp)) hap calls
    fun q hq => ⟨(hc q hq).1, (hc q hq).2.1, by have := (hc q hq).2.2; omega⟩

/-- C103: SHA-512 and SHA-384 do not access anything they may not either; the digest is the one of C38. -/
theorem ram_sha512 (R : Ram) (is384 : Bool) (dat pad msg out : Nat) (calls : List (Nat × Nat))
    (hown : AllOwned R [(dat, 128), (pad, 128), (msg, 16), (out, if is384 then 48 else 64)])
    (hl : AllApart [(dat, 128), (pad, 128), (msg, 16)]) (hap : Apart out (if is384 then 48 else 64) dat 128)
    (hc : Readable R calls dat 128 (2 ^ 32)) :
    ∃ R', hash (sha512Itf is384 dat pad msg) R calls out = some R' ∧
      Wrote R R' [(out, sha512Code is384 (message R calls)), (dat, List.replicate 128 0)] [(pad, 128), (msg, 16)] :=
  hash_computes sha512_computes (hown (dat, 128) (by simp))
    (fun p hp => hown p (by simp only [List.mem_cons, List.not_mem_nil, or_false] at hp ⊢; tauto)) hl
    (hown (out, if is384 then 48 else 64) (by simp)) hap calls
    fun q hq => ⟨(hc q hq).1, (hc q hq).2.1, by have := (hc q hq).2.2; omega⟩

/-- C103: all the bytes of the message are read: if one of them may not be read, the update is undefined, whatever the state
of the context. -/
theorem ram_hash_reads (R : Ram) (dat p n : Nat) (h : ¬ R.Owned p n) :
    (∀ c, (sha256Itf dat).update R c p n = none) ∧
    (∀ pad msg c, (sha1Itf dat pad msg).update R c p n = none) ∧
    (∀ pad c, (md5Itf dat pad).update R c p n = none) ∧
    (∀ b pad msg c, (sha512Itf b dat pad msg).update R c p n = none) := by
  refine ⟨fun c => sha256Update_needs dat n p R c h, fun _ _ c => update_needs _ _ _ _ c _ _ h, fun _ c => ?_,
    fun _ _ _ c => update_needs _ _ _ _ c _ _ h⟩
  show md5Update dat R c p n = none
  unfold md5Update
  dsimp only
  rw [md5Feed_needs dat n p _ R _ h]; rfl

/-! ### HMAC -/

/-- Where the parts of an HMAC computation may lie: the array of the hash context (64 bytes at `dat`), the key in the context
(64 bytes at `key`), the local array (64 bytes at `pad`) and the local arrays `scr` of the hash function are owned and apart from
each other; the messages, below 4 GiB each, are apart from all of these, the caller's key from the context, and the code, of `hl`
bytes, from the context and the local array.  The code may lie over the messages and over the caller's key. -/
structure HmacPlaces (R : Ram) (dat key pad : Nat) (scr : List (Nat × Nat)) (k klen : Nat) (calls : List (Nat × Nat))
    (mac hl : Nat) : Prop where
  owned : AllOwned R ((dat, 64) :: (key, 64) :: (pad, 64) :: (k, klen) :: (mac, hl) :: (calls ++ scr))
  apart : AllApart ((dat, 64) :: (key, 64) :: (pad, 64) :: scr)
  caller : Apart dat 64 k klen ∧ Apart key 64 k klen
  small : klen < 2 ^ 32 ∧ ∀ q ∈ calls, q.2 < 2 ^ 32
  calls : ∀ q ∈ calls, ∀ r ∈ (dat, 64) :: (key, 64) :: (pad, 64) :: scr, Apart r.1 r.2 q.1 q.2
  mac : Apart dat 64 mac hl ∧ Apart key 64 mac hl ∧ Apart pad 64 mac hl

theorem ram_hmac {κ : Type} {H : Itf κ} {f : List Byte → List Byte} {dat hl : Nat} {scr : List (Nat × Nat)}
    {Is : List Byte → κ → List Byte → Prop} (h : Computes H f dat 64 hl (2 ^ 32 - 1) scr Is) (hhl : hl ≤ 64) {R : Ram}
    {key pad k klen : Nat} {calls : List (Nat × Nat)} {mac : Nat} (hp : HmacPlaces R dat key pad scr k klen calls mac hl) :
    ∃ R', hmac H key pad R hl k klen calls mac = some R' ∧
      Wrote R R' [(mac, hmacS f (R.bytes k klen) (message R calls)), (dat, List.replicate 64 0)]
        ((key, 64) :: (pad, 64) :: scr) := by
  have ho := hp.owned
  refine hmac_computes h hhl (by omega) (fun p hq => ho p ?_) hp.apart (ho (k, klen) (by simp))
    (fun h64 => by have := hp.caller.2; apof this) (fun _ => ⟨hp.caller.1, by have := hp.small.1; omega⟩) calls
    (fun q hq => ⟨ho q (by simp [hq]), by have := hp.small.2 q hq; omega, hp.calls q hq⟩) (ho (mac, hl) (by simp)) hp.mac
  simp only [ranges, List.mem_cons, List.mem_append] at hq ⊢
  tauto

/-- C103: HMAC-SHA-256 on buffers in memory: no access is undefined, the code is the one of RFC 2104, and nothing changes but
the code, the contexts and the local array. -/
theorem ram_hmac_sha256 {R : Ram} {dat key pad k klen mac : Nat} {calls : List (Nat × Nat)}
    (hp : HmacPlaces R dat key pad [] k klen calls mac 32) :
    ∃ R', hmac (sha256Itf dat) key pad R 32 k klen calls mac = some R' ∧
      Wrote R R' [(mac, hmacS HashS.sha256 (R.bytes k klen) (message R calls)), (dat, List.replicate 64 0)]
        [(key, 64), (pad, 64)] :=
  ram_hmac (sha256_computes dat _) (by omega) hp

/-- C103: HMAC-SHA-1. -/
theorem ram_hmac_sha1 {R : Ram} {dat key pad p1 p2 k klen mac : Nat} {calls : List (Nat × Nat)}
    (hp : HmacPlaces R dat key pad [(p1, 64), (p2, 8)] k klen calls mac 20) :
    ∃ R', hmac (sha1Itf dat p1 p2) key pad R 20 k klen calls mac = some R' ∧
      Wrote R R' [(mac, hmacS HashS.sha1 (R.bytes k klen) (message R calls)), (dat, List.replicate 64 0)]
        [(key, 64), (pad, 64), (p1, 64), (p2, 8)] :=
  ram_hmac sha1_computes (by omega) hp

/-- C103: HMAC-MD5. -/
theorem ram_hmac_md5 {R : Ram} {dat key pad p1 k klen mac : Nat} {calls : List (Nat × Nat)}
    (hp : HmacPlaces R dat key pad [(p1, 64)] k klen calls mac 16) :
    ∃ R', hmac (md5Itf dat p1) key pad R 16 k klen calls mac = some R' ∧
      Wrote R R' [(mac, hmacS HashS.md5 (R.bytes k klen) (message R calls)), (dat, List.replicate 64 0)]
        [(key, 64), (pad, 64), (p1, 64)] :=
  ram_hmac md5_computes (by omega) hp

/-- C103: with a key longer than a block, a `hash_len` above 64 makes `cry_hmac_init` run over its arrays, whatever the hash
function does and wherever the buffers lie. -/
theorem ram_hmac_long {κ : Type} (H : Itf κ) (key pad : Nat) (R : Ram) {hashLen k klen : Nat} (hk : 64 < klen)
    (hh : 64 < hashLen) : hmacInit H key pad R hashLen k klen = none := by
  unfold hmacInit
  cases e : hmacKey H key R hashLen k klen with
  | none => rfl
  | some r =>
    have hr : r.2 = hashLen := by
      unfold hmacKey at e
      rw [if_neg (by omega)] at e
      cases e1 : H.init R with
      | none => rw [e1] at e; exact absurd e (by simp)
      | some a =>
        cases e2 : H.update a.1 a.2 k klen with
        | none => rw [e1, Option.bind_some, e2] at e; exact absurd e (by simp)
        | some b =>
          cases e3 : H.digest b.1 b.2 key with
          | none => rw [e1, Option.bind_some, e2, Option.bind_some, e3] at e; exact absurd e (by simp)
          | some c =>
            cases e4 : H.clear c.1 c.2 with
            | none =>
              rw [e1, Option.bind_some, e2, Option.bind_some, e3, Option.bind_some, e4] at e; exact absurd e (by simp)
            | some d =>
              rw [e1, Option.bind_some, e2, Option.bind_some, e3, Option.bind_some, e4] at e
              cases e; rfl
    rw [Option.bind_some, hr]
    have : hmacStart H key pad r.1 0x36 hashLen = none := by
      unfold hmacStart fill
      split
      · rw [Option.bind_some, padLoop_over _ _ _ (by omega) (by omega)]; rfl
      · rfl
    rw [this]; rfl

/-! ### The hypotheses can be met -/

/-- A memory of 1000 bytes, holding the low byte of the address. -/
def exRam : Ram := ⟨fun a => a < 1000, fun a => BitVec.ofNat 8 a, []⟩

theorem exRam_owned {a n : Nat} (h : a + n ≤ 1000) : exRam.Owned a n := fun i hi => by
  show decide (a + i < 1000) = true
  rw [decide_eq_true_eq]; omega

-- "abc" hashed in two parts, the digest over the message
example : ∃ R', hash (sha256Itf 500) exRam [(0x61, 1), (0x62, 2)] 0x61 = some R' ∧ R'.bytes 0x61 32 =
    HashS.sha256 [0x61, 0x62, 0x63] := by
  obtain ⟨R', e, w⟩ := ram_sha256 exRam 500 0x61 [(0x61, 1), (0x62, 2)] (exRam_owned (by omega)) (exRam_owned (by omega))
    (by decide) (by
      intro q hq
      simp only [List.mem_cons, List.not_mem_nil, or_false] at hq
      rcases hq with rfl | rfl
      · exact ⟨exRam_owned (by omega), by decide⟩
      · exact ⟨exRam_owned (by omega), by decide⟩)
  refine ⟨R', e, ?_⟩
  have := w.at_ _ (List.mem_cons_self ..)
  dsimp only at this
  rw [show (HashS.sha256 (message exRam [(0x61, 1), (0x62, 2)])).length = 32 from
    (sha256_computes 0 0).len _] at this
  exact this

-- a long key, the code over key and message
example : HmacPlaces exRam 500 600 700 [(800, 64), (900, 8)] 10 100 [(200, 50), (260, 0)] 100 20 where
  owned := by
    intro p hp
    apply exRam_owned
    simp only [List.cons_append, List.nil_append, List.mem_cons, List.not_mem_nil, or_false] at hp
    rcases hp with rfl | rfl | rfl | rfl | rfl | rfl | rfl | rfl | rfl <;> decide
  apart := by unfold AllApart; decide
  caller := by decide
  small := by decide
  calls := by decide
  mac := by decide

example : hmacInit (sha256Itf 500) 600 700 exRam 65 10 65 = none := ram_hmac_long _ _ _ _ (by omega) (by omega)

end Verif.RamHash
