import Verif.Model.Ram.Crc
import Verif.Lemmas.Ram.Hmac
import Verif.Props.Ram.Wrap
import Verif.Props.Ram.Prng
import Verif.Props.Crypt.Crc
import Verif.Props.Prng.Lfsr113
/-!
# C106: CRC and LFSR113 on buffers in memory
-/
namespace Verif.RamCrc
open Verif.Ram Verif.RamHash Verif.Crc
open Verif.CrcS (reg remainder gCcitt gDnp gIbm gEth)
open Verif.Lfsr (St steps value)

/-! ### CRC -/

theorem index_lt {n : Nat} (v : BitVec n) : (v &&& 0xFF#n).toNat < 256 := by
  rw [BitVec.toNat_and]
  refine lt_of_le_of_lt Nat.and_le_right ?_
  rw [BitVec.toNat_ofNat]
  exact lt_of_le_of_lt (Nat.mod_le _ _) (by omega)

theorem update_eq {n : Nat} {R : Ram} : ∀ (size : Nat) (c : Ctx n) (buf : Nat), c.tab.length = 256 → R.Owned buf size →
    update size R c buf = some (Crc.update c (R.bytes buf size))
  | 0, c, buf, _, _ => rfl
  | size + 1, c, buf, ht, ho => by
    rw [update, load_eq (by ownof ho), Option.bind_some, List.getElem?_eq_getElem (by rw [ht]; exact index_lt _), Option.bind_some,
      update_eq size _ (buf + 1) (by exact ht) (by ownof ho), bytes_cons, Crc.update]
    rw [List.getD_eq_getElem?_getD, List.getElem?_eq_getElem (by rw [ht]; exact index_lt _), Option.getD_some]

theorem update_needs {n : Nat} {R : Ram} : ∀ (size : Nat) (c c' : Ctx n) (buf : Nat), update size R c buf = some c' →
    R.Owned buf size
  | 0, _, _, _, _ => fun i hi => absurd hi (by omega)
  | size + 1, c, c', buf, h => by
    rw [update, Option.bind_eq_some_iff] at h
    obtain ⟨b, h1, h⟩ := h
    rw [Option.bind_eq_some_iff] at h
    obtain ⟨t, -, h⟩ := h
    have h2 := update_needs size _ _ _ h
    intro i hi
    rcases i with _ | i
    · unfold load at h1
      by_contra hb
      rw [Nat.add_zero] at hb
      rw [if_neg hb] at h1
      exact Option.some_ne_none _ h1.symm
    · have := h2 i (by omega)
      rwa [Nat.add_assoc, Nat.add_comm 1 i] at this

theorem updates_eq {n : Nat} {R : Ram} : ∀ (calls : List (Nat × Nat)) (c : Ctx n), c.tab.length = 256 →
    (∀ q ∈ calls, R.Owned q.1 q.2) → updates R c calls = some (Crc.update c (message R calls))
  | [], c, _, _ => rfl
  | q :: qs, c, ht, h => by
    rw [updates, update_eq q.2 c q.1 ht (h q (by simp)), Option.bind_some,
      updates_eq qs _ (by rw [(update_keeps _ c).1, ht]) (fun r hr => h r (by simp [hr])), update_split]
    rfl

theorem digest16_eq {R : Ram} {c : Ctx 16} {out : Nat} (h : R.Owned out 2) :
    digest16 R c out = some (R.put out (Crc.digest16 c), { c with crc := final16 c }) := by
  unfold digest16
  dsimp only
  rw [store_eq (by ownof h), Option.bind_some, store_eq (by ownof h), Option.map_some]
  have := put_append (R := R) out [(final16 c >>> 8).setWidth 8] [(final16 c &&& 0xFF#16).setWidth 8]
  rw [List.length_singleton] at this
  rw [← this]; rfl

theorem digest32_eq {R : Ram} {c : Ctx 32} {out : Nat} (h : R.Owned out 4) :
    digest32 R c out = some (R.put out (Crc.digest32 c), { c with crc := final32 c }) := by
  unfold digest32
  dsimp only
  rw [store_eq (by ownof h), Option.bind_some, store_eq (by ownof h), Option.bind_some, store_eq (by ownof h), Option.bind_some,
    store_eq (by ownof h), Option.map_some]
  have h3 : ∀ (R : Ram) (a b c d : Byte), (((R.put out [a]).put (out + 1) [b]).put (out + 2) [c]).put (out + 3) [d] =
      R.put out [a, b, c, d] := by
    intro R a b c d
    rw [show [a, b, c, d] = [a] ++ ([b] ++ ([c] ++ [d])) from rfl, put_append, put_append, put_append]
    rfl
  rw [h3]; rfl

/-- The value which the standard algorithm gives for a message: remainder, complement, exchange of the bytes. -/
def Is16 (c : Ctx 16) (g : CrcS.Pol) (start : BitVec 16) (fin : BitVec 16 → BitVec 16) : Prop :=
  ∀ R calls out, (∀ q ∈ calls, R.Owned q.1 q.2) → R.Owned out 2 →
    ∃ c1 R' c2 r a b, updates R c calls = some c1 ∧ digest16 R c1 out = some (R', c2) ∧
      reg r = remainder g start (message R calls) ∧ (a ++ b : BitVec 16) = fin r ∧ Wrote R R' [(out, [a, b])] []

/-- The same for 32 bits. -/
def Is32 (c : Ctx 32) (g : CrcS.Pol) (start : BitVec 32) (fin : BitVec 32 → BitVec 32) : Prop :=
  ∀ R calls out, (∀ q ∈ calls, R.Owned q.1 q.2) → R.Owned out 4 →
    ∃ c1 R' c2 r a b d e, updates R c calls = some c1 ∧ digest32 R c1 out = some (R', c2) ∧
      reg r = remainder g start (message R calls) ∧ (a ++ b ++ d ++ e : BitVec 32) = fin r ∧ Wrote R R' [(out, [a, b, d, e])] []

theorem is16 {c : Ctx 16} {g : CrcS.Pol} {start : BitVec 16} {fin : BitVec 16 → BitVec 16} (ht : c.tab.length = 256)
    (h : ∀ msg, ∃ r : BitVec 16, reg r = remainder g start msg ∧ final16 (Crc.update c msg) = fin r) : Is16 c g start fin := by
  intro R calls out h1 h2
  obtain ⟨r, e1, e2⟩ := h (message R calls)
  obtain ⟨a, b, e3, e4⟩ := digest16_value (Crc.update c (message R calls))
  exact ⟨_, _, _, r, a, b, updates_eq calls c ht h1, digest16_eq h2, e1, by rw [e4, e2], by rw [e3]; exact Verif.Ram.wrote_put1 _ _ _⟩

theorem is32 {c : Ctx 32} {g : CrcS.Pol} {start : BitVec 32} {fin : BitVec 32 → BitVec 32} (ht : c.tab.length = 256)
    (h : ∀ msg, ∃ r : BitVec 32, reg r = remainder g start msg ∧ final32 (Crc.update c msg) = fin r) : Is32 c g start fin := by
  intro R calls out h1 h2
  obtain ⟨r, e1, e2⟩ := h (message R calls)
  obtain ⟨a, b, d, e, e3, e4⟩ := digest32_value (Crc.update c (message R calls))
  exact ⟨_, _, _, r, a, b, d, e, updates_eq calls c ht h1, digest32_eq h2, e1, by rw [e4, e2], by rw [e3]; exact Verif.Ram.wrote_put1 _ _ _⟩

/-- C106: the four CRCs, over any buffers, in any number of updates, no access is undefined, and only the digest, which may lie
over the message, is written: the remainder of the documented polynomial, complemented and exchanged where the algorithm says so. -/
theorem ram_crc :
    Is16 ccittInit gCcitt 0xFFFF#16 (fun r => (~~~ r).rotateLeft 8) ∧ Is16 dnpInit gDnp 0#16 (fun r => (~~~ r).rotateLeft 8) ∧
    Is16 ibmInit gIbm 0xFFFF#16 id ∧ Is32 ethInit gEth 0xFFFFFFFF#32 (fun r => ~~~ r) :=
  ⟨is16 (by decide +kernel) ccitt_remainder, is16 (by decide +kernel) dnp_remainder,
    is16 (by decide +kernel) fun msg => ⟨_, ibm_remainder msg, rfl⟩, is32 (by decide +kernel) eth_remainder⟩

-- 33 bytes in two buffers and an empty one, the digest over the first of them
example : (∀ q ∈ [(100, 20), (200, 13), (0, 0)], RamHash.exRam.Owned q.1 q.2) ∧ RamHash.exRam.Owned 101 4 := by
  refine ⟨fun q h => ?_, RamHash.exRam_owned (by decide)⟩
  simp only [List.mem_cons, List.not_mem_nil, or_false] at h
  rcases h with rfl | rfl | rfl <;> exact RamHash.exRam_owned (by decide)

/-- C106: an update reads all the bytes: if one of them may not be read, it is undefined. -/
theorem ram_crc_reads {n : Nat} {R : Ram} (c : Ctx n) {buf size : Nat} (h : ¬ R.Owned buf size) : update size R c buf = none :=
  Option.eq_none_iff_forall_ne_some.2 fun _ e => h (update_needs _ _ _ _ e)

/-! ### LFSR113 -/

/-- Byte `i` of a request which begins after `t` words: the words are written high byte first. -/
def lfsrByte (s : St) (t i : Nat) : Byte := (value (steps s (t + i / 4 + 1)) >>> (24 - 8 * (i % 4))).setWidth 8

/-- The buffers of the requests with their bytes; each request begins with a fresh word. -/
def lfsrPieces (s : St) : Nat → List (Nat × Nat) → List (Nat × List Byte)
  | _, [] => []
  | t, q :: qs => (q.1, (List.range q.2).map (lfsrByte s t)) :: lfsrPieces s (t + (q.2 + 3) / 4) qs

theorem range_map_add {α : Type} (f : Nat → α) (a b : Nat) :
    (List.range (a + b)).map f = (List.range a).map f ++ (List.range b).map fun i => f (a + i) := by
  rw [List.range_add, List.map_append, List.map_map]; rfl

theorem lfsrByte_add (s : St) (t k i : Nat) : lfsrByte s t (4 * k + i) = lfsrByte s (t + k) i := by
  unfold lfsrByte
  rw [show t + (4 * k + i) / 4 + 1 = t + k + i / 4 + 1 by omega, show (4 * k + i) % 4 = i % 4 by omega]

theorem lfsrWords_eq (s : St) : ∀ (k t : Nat) (R : Ram) (buf : Nat), R.Owned buf (4 * k) →
    lfsrWords k R (steps s t) buf = some (R.put buf ((List.range (4 * k)).map (lfsrByte s t)), steps s (t + k), buf + 4 * k)
  | 0, t, R, buf, _ => by simp [lfsrWords]
  | k + 1, t, R, buf, ho => by
    rw [lfsrWords]
    rw [store_eq (by ownof ho), Option.bind_some, store_eq (by ownof ho), Option.bind_some, store_eq (by ownof ho), Option.bind_some,
      store_eq (by ownof ho), Option.bind_some]
    have h3 : ∀ (R : Ram) (a b c d : Byte), (((R.put buf [a]).put (buf + 1) [b]).put (buf + 2) [c]).put (buf + 3) [d] =
        R.put buf [a, b, c, d] := by
      intro R a b c d
      rw [show [a, b, c, d] = [a] ++ ([b] ++ ([c] ++ [d])) from rfl, put_append, put_append, put_append]
      rfl
    have ih := lfsrWords_eq s k (t + 1) (R.put buf ((List.range 4).map (lfsrByte s t))) (buf + 4) (by ownof ho)
    rw [h3]
    refine Eq.trans ?_ (ih.trans ?_)
    · congr 1
    · rw [show 4 * (k + 1) = 4 + 4 * k by omega, range_map_add, put_append, List.length_map, List.length_range,
        show t + 1 + k = t + (k + 1) by omega, show buf + 4 + 4 * k = buf + (4 + 4 * k) by omega]
      have : (fun i => lfsrByte s t (4 + i)) = lfsrByte s (t + 1) := by
        funext i; exact lfsrByte_add s t 1 i
      rw [this]

theorem lfsrTail_eq {R : Ram} (r : BitVec 32) {i buf : Nat} (hi : i < 4) (ho : R.Owned buf i) :
    lfsrTail i R r buf = some (R.put buf ((List.range i).map fun j => (r >>> (24 - 8 * (j % 4))).setWidth 8)) := by
  have e1 : ((r <<< 8) >>> 24).setWidth 8 = (r >>> 16).setWidth 8 := by
    apply BitVec.eq_of_getLsbD_eq; intro j hj; simp; interval_cases j <;> simp
  have e2 : (((r <<< 8) <<< 8) >>> 24).setWidth 8 = (r >>> 8).setWidth 8 := by
    apply BitVec.eq_of_getLsbD_eq; intro j hj; simp; interval_cases j <;> simp
  rcases i with _ | _ | _ | _ | i
  · simp [lfsrTail]
  · rw [lfsrTail, store_eq (by ownof ho), Option.bind_some]; rfl
  · rw [lfsrTail, store_eq (by ownof ho), Option.bind_some, lfsrTail, store_eq (by ownof ho), Option.bind_some, e1]
    have := put_append (R := R) buf [(r >>> 24).setWidth 8] [(r >>> 16).setWidth 8]
    rw [List.length_singleton] at this
    rw [← this]; rfl
  · rw [lfsrTail, store_eq (by ownof ho), Option.bind_some, lfsrTail, store_eq (by ownof ho), Option.bind_some, lfsrTail,
      store_eq (by ownof ho), Option.bind_some, e1, e2]
    have : R.put buf ([(r >>> 24).setWidth 8] ++ ([(r >>> 16).setWidth 8] ++ [(r >>> 8).setWidth 8])) =
        ((R.put buf [(r >>> 24).setWidth 8]).put (buf + 1) [(r >>> 16).setWidth 8]).put (buf + 1 + 1) [(r >>> 8).setWidth 8] := by
      rw [put_append, put_append]; rfl
    rw [← this]; rfl
  · omega

theorem lfsrRand_eq {R : Ram} (s : St) (t : Nat) {buf siz : Nat} (ho : R.Owned buf siz) :
    lfsrRand R (steps s t) buf siz = some (R.put buf ((List.range siz).map (lfsrByte s t)), steps s (t + (siz + 3) / 4)) := by
  unfold lfsrRand
  rw [lfsrWords_eq s (siz / 4) t R buf (by ownof ho), Option.bind_some]
  dsimp only
  rw [show siz &&& 3 = siz % 4 from Nat.and_two_pow_sub_one_eq_mod siz 2]
  by_cases h : siz % 4 ≠ 0
  · rw [if_pos h, lfsrTail_eq _ (by omega) (by ownof ho), Option.map_some]
    have e : siz = 4 * (siz / 4) + siz % 4 := by omega
    have f : t + (siz + 3) / 4 = t + siz / 4 + 1 := by omega
    have g : (List.range (siz % 4)).map (fun j => (value (steps s (t + siz / 4 + 1)) >>> (24 - 8 * (j % 4))).setWidth 8) =
        (List.range (siz % 4)).map fun i => lfsrByte s t (4 * (siz / 4) + i) := by
      refine List.map_congr_left fun j hj => ?_
      have : j < 4 := by have := List.mem_range.1 hj; omega
      rw [lfsrByte_add, lfsrByte, show j / 4 = 0 by omega]
    have k : (List.range siz).map (lfsrByte s t) = (List.range (4 * (siz / 4))).map (lfsrByte s t) ++
        (List.range (siz % 4)).map fun i => lfsrByte s t (4 * (siz / 4) + i) := by
      rw [← range_map_add, ← e]
    rw [k, put_append, List.length_map, List.length_range, ← g, f]
    rfl
  · have e : 4 * (siz / 4) = siz := by omega
    rw [if_neg h, e, show (siz + 3) / 4 = siz / 4 by omega]

theorem lfsrRands_eq (s : St) : ∀ (reqs : List (Nat × Nat)) (t : Nat) (R : Ram), (∀ q ∈ reqs, R.Owned q.1 q.2) →
    reqs.Pairwise (fun q r => Apart q.1 q.2 r.1 r.2) →
    ∃ R' s', lfsrRands R (steps s t) reqs = some (R', s') ∧ (∀ w ∈ lfsrPieces s t reqs, R'.bytes w.1 w.2.length = w.2) ∧
      Wrote R R' [] reqs
  | [], t, R, _, _ => ⟨R, _, rfl, by simp [lfsrPieces], wrote_refl _ _⟩
  | q :: qs, t, R, ho, hp => by
    have hl : ((List.range q.2).map (lfsrByte s t)).length = q.2 := by rw [List.length_map, List.length_range]
    obtain ⟨R2, s2, e, b, w⟩ := lfsrRands_eq s qs (t + (q.2 + 3) / 4) (R.put q.1 ((List.range q.2).map (lfsrByte s t)))
      (fun r hr => by have := ho r (by simp [hr]); ownof this) (List.pairwise_cons.1 hp).2
    refine ⟨R2, s2, by rw [lfsrRands, lfsrRand_eq s t (ho q (by simp))]; exact e, ?_, ?_⟩
    · intro v hv
      rw [lfsrPieces, List.mem_cons] at hv
      rcases hv with rfl | hv
      · dsimp only
        rw [wrote_bytes w fun r hr => by rw [hl]; exact ((List.pairwise_cons.1 hp).1 r hr).flip]
        exact bytes_put_same rfl
      · exact b v hv
    · exact wrote_trans (RamHash.wrote_put _ _ hl (by simp) (wrote_refl _ _)) (wrote_mono w fun r hr => by simp [hr])

theorem lfsrPieces_ranges (s : St) : ∀ (reqs : List (Nat × Nat)) (t : Nat) (q : Nat × Nat), q ∈ reqs →
    ∃ w ∈ lfsrPieces s t reqs, w.1 = q.1 ∧ w.2.length = q.2
  | r :: rs, t, q, h => by
    rcases List.mem_cons.1 h with rfl | h
    · exact ⟨_, by rw [lfsrPieces]; exact List.mem_cons_self, rfl, by simp⟩
    · obtain ⟨w, h1, h2⟩ := lfsrPieces_ranges s rs (t + (r.2 + 3) / 4) q h
      exact ⟨w, by rw [lfsrPieces]; exact List.mem_cons_of_mem _ h1, h2⟩

/-- C106: requests of any sizes from any state of LFSR113: no access is undefined, each buffer holds the words of the generator
that follow, high byte first and cut at the end, and nothing else changes. -/
theorem ram_lfsr (s : St) {R : Ram} {reqs : List (Nat × Nat)} (ho : ∀ q ∈ reqs, R.Owned q.1 q.2)
    (hp : reqs.Pairwise fun q r => Apart q.1 q.2 r.1 r.2) :
    ∃ R' s', lfsrRands R s reqs = some (R', s') ∧ Wrote R R' (lfsrPieces s 0 reqs) [] := by
  obtain ⟨R', s', e, b, w⟩ := lfsrRands_eq s reqs 0 R ho hp
  refine ⟨R', s', e, w.own, w.tmp, b, fun x h1 _ => w.else_ x (by simp) fun r hr => ?_⟩
  obtain ⟨v, k1, k2, k3⟩ := lfsrPieces_ranges s reqs 0 r hr
  have := h1 v k1
  rwa [k2, k3] at this

example : (∀ q ∈ [(110, 5), (0, 0), (200, 40), (240, 3)], RamHash.exRam.Owned q.1 q.2) ∧
    [(110, 5), (0, 0), (200, 40), (240, 3)].Pairwise fun q r => Apart q.1 q.2 r.1 r.2 := by
  refine ⟨fun q h => ?_, by decide⟩
  simp only [List.mem_cons, List.not_mem_nil, or_false] at h
  rcases h with rfl | rfl | rfl | rfl <;> exact RamHash.exRam_owned (by decide)

theorem seedXor_eq {R : Ram} {seed : Nat} (tl : List Byte) : ∀ (k : Nat) (pre : List Byte), pre.length + k ≤ 16 →
    R.Owned (seed + pre.length) k →
    seedXor R seed k pre.length (pre ++ (List.replicate k 0 ++ tl)) = some (pre ++ (R.bytes (seed + pre.length) k ++ tl))
  | 0, pre, _, _ => rfl
  | k + 1, pre, h, ho => by
    rw [seedXor, load_eq (by ownof ho), Option.bind_some, Nat.mod_eq_of_lt (by omega), List.replicate_succ, List.cons_append,
      bytes_cons]
    have e : (pre ++ (0 : Byte) :: (List.replicate k 0 ++ tl)).modify pre.length (· ^^^ R.mem (seed + pre.length)) =
        (pre ++ [R.mem (seed + pre.length)]) ++ (List.replicate k 0 ++ tl) := by
      rw [List.modify_eq_set_getElem?, List.getElem?_append_right le_rfl, Nat.sub_self, List.getElem?_cons_zero, Option.map_eq_map, Option.map_some,
        Option.getD_some, List.set_append_right _ _ le_rfl, Nat.sub_self, List.set_cons_zero, List.append_assoc,
        List.singleton_append]
      congr 2
      exact BitVec.zero_xor
    rw [e]
    have := seedXor_eq (R := R) (seed := seed) tl k (pre ++ [R.mem (seed + pre.length)])
      (by rw [List.length_append, List.length_singleton]; omega) (by rw [List.length_append, List.length_singleton]; ownof ho)
    rw [List.length_append, List.length_singleton] at this
    rw [this, List.append_assoc, List.singleton_append, List.cons_append, Nat.add_assoc]

theorem seedXor_needs {R : Ram} {seed : Nat} : ∀ (k i : Nat) (p p' : List Byte), seedXor R seed k i p = some p' →
    R.Owned (seed + i) k
  | 0, _, _, _, _ => fun j hj => absurd hj (by omega)
  | k + 1, i, p, p', h => by
    rw [seedXor, Option.bind_eq_some_iff] at h
    obtain ⟨x, h1, h⟩ := h
    have h2 := seedXor_needs k _ _ _ h
    intro j hj
    rcases j with _ | j
    · unfold load at h1
      by_contra hb
      rw [Nat.add_zero] at hb
      rw [if_neg hb] at h1
      exact Option.some_ne_none _ h1.symm
    · have := h2 j (by omega)
      rwa [show seed + (i + 1) + j = seed + i + (j + 1) by omega] at this

/-- C106: seeding reads the seed and is the seeding of C46; with more than 16 bytes, or a byte that may not be read, it is
undefined. -/
theorem ram_lfsr_init (s : St) (R : Ram) (seed n : Nat) :
    (R.Owned seed n → lfsrInit R s seed n = Lfsr.init s (R.bytes seed n)) ∧ (16 < n → lfsrInit R s seed n = none) ∧
      (¬ R.Owned seed n → lfsrInit R s seed n = none) := by
  refine ⟨fun ho => ?_, fun h => if_pos h, fun ho => ?_⟩
  rotate_left
  · unfold lfsrInit
    split
    · rfl
    · rw [Option.map_eq_none_iff]
      exact Option.eq_none_iff_forall_ne_some.2 fun _ e => ho (by simpa using seedXor_needs _ _ _ _ e)
  unfold lfsrInit Lfsr.init
  rw [bytes_length]
  by_cases h : n > 16
  · rw [if_pos h, if_pos h]
  · rw [if_neg h, if_neg h]
    have := seedXor_eq (R := R) (seed := seed) ((Lfsr.bytes s).drop n) n [] (by rw [List.length_nil]; omega)
      (by rw [List.length_nil]; exact ho)
    rw [List.length_nil, List.nil_append, List.nil_append, Nat.add_zero] at this
    rw [this, Option.map_some]
    dsimp only
    have z : List.zipWith (· ^^^ ·) (List.replicate n (0 : Byte)) (R.bytes seed n) = R.bytes seed n := by
      apply List.ext_getElem
      · simp [bytes_length]
      · intro i h1 h2; simp
    rw [List.take_left' List.length_replicate, List.drop_left' List.length_replicate, z]

example : RamHash.exRam.Owned 100 16 := RamHash.exRam_owned (by decide)

end Verif.RamCrc
