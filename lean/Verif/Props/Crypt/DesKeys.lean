import Verif.Props.Crypt.Des
/-!
# C107: the keys of DES and triple DES
-/
namespace Verif.Des
open Verif.DesS

/-! ### Parity bits -/

/-- Two keys that differ at most in the lowest bit of each byte. -/
def SameKey (a b : List Byte) : Prop := a.map (· ||| 1) = b.map (· ||| 1)

theorem SameKey.length {a b : List Byte} (h : SameKey a b) : a.length = b.length := by
  have := congrArg List.length h
  simpa using this

theorem SameKey.take {a b : List Byte} (h : SameKey a b) (n : Nat) : SameKey (a.take n) (b.take n) := by
  unfold SameKey at h ⊢; rw [List.map_take, List.map_take, h]
theorem SameKey.drop {a b : List Byte} (h : SameKey a b) (n : Nat) : SameKey (a.drop n) (b.drop n) := by
  unfold SameKey at h ⊢; rw [List.map_drop, List.map_drop, h]
theorem SameKey.append {a b : List Byte} (h : SameKey a b) (c : List Byte) : SameKey (a ++ c) (b ++ c) := by
  unfold SameKey at h ⊢; rw [List.map_append, List.map_append, h]

theorem or_one_bit {x y : Byte} (h : x ||| 1 = y ||| 1) {i : Nat} (hi : 0 < i) : x.getLsbD i = y.getLsbD i := by
  have := congrArg (fun v => BitVec.getLsbD v i) h
  simp only [BitVec.getLsbD_or] at this
  rwa [show (1 : Byte) = 1#8 from rfl, BitVec.getLsbD_one, decide_eq_false (by omega : ¬ i = 0), Bool.and_false, Bool.or_false, Bool.or_false] at this

theorem SameKey.bit {a b : List Byte} (h : SameKey a b) {k : Nat} (hk : k % 8 ≠ 7) : bit a k = bit b k := by
  unfold Des.bit
  by_cases hl : k / 8 < a.length
  · have h1 := congrArg (fun l => l[k / 8]?) h
    simp only [List.getElem?_map, List.getElem?_eq_getElem hl, List.getElem?_eq_getElem (h.length ▸ hl), Option.map_some, Option.some.injEq] at h1
    rw [List.getD_eq_getElem?_getD, List.getD_eq_getElem?_getD, List.getElem?_eq_getElem hl, List.getElem?_eq_getElem (h.length ▸ hl)]
    exact or_one_bit h1 (by omega)
  · rw [List.getD_eq_getElem?_getD, List.getD_eq_getElem?_getD, List.getElem?_eq_none (by omega), List.getElem?_eq_none (by rw [← h.length]; omega)]

theorem SameKey.operate {a b : List Byte} (h : SameKey a b) (src : List Byte) (e : Bool) : blockOperate src a e = blockOperate src b e := by
  have hp : permute a pc1Tab 7 = permute b pc1Tab 7 := by
    apply bits_inj (by rw [permute_length, permute_length])
    rw [permute_bits _ (by decide), permute_bits _ (by decide)]
    unfold perm
    apply List.map_congr_left
    intro i hi
    rw [bits_getD, bits_getD]
    exact h.bit ((by decide : ∀ i ∈ pc1Tab, (i - 1) % 8 ≠ 7) i hi)
  unfold blockOperate
  rw [hp]

/-- C107: the lowest bit of each byte of the key, its parity bit, has no effect; for keys of every length and every message. -/
theorem des_parity (a b : List Byte) (h : SameKey a b) (src : List Byte) :
    encrypt (keySet a) src = encrypt (keySet b) src ∧ decrypt (keySet a) src = decrypt (keySet b) src := by
  have hk : (keySet a).keylen = (keySet b).keylen := by unfold keySet; dsimp only; rw [h.length]
  have hs : SameKey (keySet a).key (keySet b).key := by
    unfold keySet; dsimp only; rw [h.length]; exact (h.take _).append _
  have he : encBlock (keySet a) = encBlock (keySet b) := by
    funext x
    unfold encBlock
    rw [hk, (hs.take 8).operate]
    dsimp only
    rw [((hs.drop 8).take 8).operate, ((hs.drop 16).take 8).operate]
  have hd : decBlock (keySet a) = decBlock (keySet b) := by
    funext x
    unfold decBlock
    rw [hk]
    dsimp only
    rw [(hs.take 8).operate, ((hs.drop 8).take 8).operate, ((hs.drop 16).take 8).operate, (hs.take 8).operate]
  unfold encrypt decrypt
  rw [he, hd]
  exact ⟨rfl, rfl⟩

/-- The example of the standard with all parity bits flipped. -/
example : SameKey [0x13, 0x34, 0x57, 0x79, 0x9B, 0xBC, 0xDF, 0xF1] [0x12, 0x35, 0x56, 0x78, 0x9A, 0xBD, 0xDE, 0xF0] := by unfold SameKey; decide

/-! ### Keys of other lengths -/

/-- The first eight bytes of a key, with zeros behind a shorter one. -/
def firstKey (key : List Byte) : List Byte := key.take 8 ++ List.replicate (8 - key.length) 0

theorem keySet_first (key : List Byte) : (keySet key).key.take 8 = firstKey key := by
  unfold keySet firstKey
  dsimp only
  by_cases h : key.length < 8
  · rw [if_neg (by omega), List.take_of_length_le (l := key) (le_refl _), List.take_of_length_le (l := key) (by omega), List.take_append,
      List.take_of_length_le (l := key) (by omega), List.take_replicate]
    congr 2; omega
  · rw [show 8 - key.length = 0 by omega, List.replicate_zero, List.append_nil, List.take_append, List.take_take]
    rw [show 8 - (key.take (if key.length > 24 then 24 else key.length)).length = 0 by rw [List.length_take]; split <;> omega, List.take_zero, List.append_nil]
    congr 1; split <;> omega

/-- C107: a key of less than 24 bytes is the single key in its first eight bytes, with zeros for missing ones: the rest of a key of
16 bytes has no effect. -/
theorem des_short_key (key : List Byte) (h : key.length < 24) (src : List Byte) :
    encrypt (keySet key) src = encrypt (keySet (firstKey key)) src ∧ decrypt (keySet key) src = decrypt (keySet (firstKey key)) src := by
  have hl : (firstKey key).length = 8 := by unfold firstKey; rw [List.length_append, List.length_take, List.length_replicate]; omega
  have h1 : (keySet key).keylen ≠ 24 := by unfold keySet; dsimp only; rw [if_neg (by omega)]; omega
  have h2 : (keySet (firstKey key)).keylen ≠ 24 := by unfold keySet; dsimp only; rw [if_neg (by omega)]; omega
  have h3 : (keySet (firstKey key)).key.take 8 = firstKey key := by
    rw [keySet_first, firstKey, hl, Nat.sub_self, List.replicate_zero, List.append_nil, List.take_of_length_le (by omega)]
  have he : encBlock (keySet key) = encBlock (keySet (firstKey key)) := by
    funext x; unfold encBlock; dsimp only; rw [if_neg h1, if_neg h2, h3, keySet_first]
  have hd : decBlock (keySet key) = decBlock (keySet (firstKey key)) := by
    funext x; unfold decBlock; dsimp only; rw [if_neg h1, if_neg h2, h3, keySet_first]
  unfold encrypt decrypt
  rw [he, hd]
  exact ⟨rfl, rfl⟩

/-- C107: bytes of the key behind the 24th have no effect. -/
theorem des_long_key (key : List Byte) (h : 24 ≤ key.length) : keySet key = keySet (key.take 24) := by
  unfold keySet
  dsimp only
  have hl : (key.take 24).length = 24 := by rw [List.length_take]; omega
  have hc : (if key.length > 24 then 24 else key.length) = 24 := by split <;> omega
  rw [hl, if_neg (by omega : ¬ 24 > 24), hc, List.take_take, Nat.min_self]

/-- So a key of 16 bytes is not triple DES with two keys. -/
example : ∃ k1 k2 : List Byte, k1.length = 8 ∧ k2.length = 8 ∧ encBlock (keySet (k1 ++ k2)) (List.replicate 8 0) ≠ encBlock (keySet (k1 ++ k2 ++ k1)) (List.replicate 8 0) :=
  ⟨List.replicate 8 0, List.replicate 8 0x10, rfl, rfl, by decide +kernel⟩

/-! ### Triple DES as single DES -/

/-- C107: triple DES with the first or the last two keys equal is DES with the remaining one. -/
theorem des_triple_single (k l : List Byte) (hk : k.length = 8) (hl : l.length = 8) (src : List Byte) (hs : src.length % 8 = 0) :
    encrypt (keySet (k ++ k ++ l)) src = encrypt (keySet l) src ∧ decrypt (keySet (k ++ k ++ l)) src = decrypt (keySet l) src ∧
    encrypt (keySet (l ++ k ++ k)) src = encrypt (keySet l) src ∧ decrypt (keySet (l ++ k ++ k)) src = decrypt (keySet l) src := by
  obtain ⟨bs, hb, rfl⟩ := exists_blocks (src.length / 8) src (by omega)
  have bl : ∀ b ∈ bs, (bits b).length = 64 := fun b h => by rw [bits_length, hb b h]
  have len : ∀ (key src : List Byte) (e : Bool), (bits (blockOperate src key e)).length = 64 := fun key src e => by rw [bits_length, blockOperate_length]
  simp only [(des_blocks _ bs hb).1, (des_blocks _ bs hb).2, Option.some.injEq]
  refine ⟨?_, ?_, ?_, ?_⟩ <;> refine congrArg List.flatten (List.map_congr_left fun b h => bits_inj (by simp only [encBlock_length, decBlock_length]) ?_)
  · rw [(des_standard k k l b hk hk hl).2.2.1, (des_standard l k k b hl hk hk).1, dec_enc _ (bl b h)]
  · rw [(des_standard k k l b hk hk hl).2.2.2, (des_standard l k k b hl hk hk).2.1, ← (des_block b l).2, dec_enc _ (len _ _ _)]
  · rw [(des_standard l k k b hl hk hk).2.2.1, (des_standard l k k b hl hk hk).1, ← (des_block b l).1, enc_dec _ (len _ _ _)]
  · rw [(des_standard l k k b hl hk hk).2.2.2, (des_standard l k k b hl hk hk).2.1, enc_dec _ (bl b h)]

/-! ### Weak and semi-weak keys -/

/-- The weak keys, each paired with itself, and the pairs of semi-weak keys of FIPS 74. -/
def weakPairs : List (List Byte × List Byte) :=
  [([0x01, 0x01, 0x01, 0x01, 0x01, 0x01, 0x01, 0x01], [0x01, 0x01, 0x01, 0x01, 0x01, 0x01, 0x01, 0x01]),
   ([0xFE, 0xFE, 0xFE, 0xFE, 0xFE, 0xFE, 0xFE, 0xFE], [0xFE, 0xFE, 0xFE, 0xFE, 0xFE, 0xFE, 0xFE, 0xFE]),
   ([0x1F, 0x1F, 0x1F, 0x1F, 0x0E, 0x0E, 0x0E, 0x0E], [0x1F, 0x1F, 0x1F, 0x1F, 0x0E, 0x0E, 0x0E, 0x0E]),
   ([0xE0, 0xE0, 0xE0, 0xE0, 0xF1, 0xF1, 0xF1, 0xF1], [0xE0, 0xE0, 0xE0, 0xE0, 0xF1, 0xF1, 0xF1, 0xF1]),
   ([0x01, 0xFE, 0x01, 0xFE, 0x01, 0xFE, 0x01, 0xFE], [0xFE, 0x01, 0xFE, 0x01, 0xFE, 0x01, 0xFE, 0x01]),
   ([0x1F, 0xE0, 0x1F, 0xE0, 0x0E, 0xF1, 0x0E, 0xF1], [0xE0, 0x1F, 0xE0, 0x1F, 0xF1, 0x0E, 0xF1, 0x0E]),
   ([0x01, 0xE0, 0x01, 0xE0, 0x01, 0xF1, 0x01, 0xF1], [0xE0, 0x01, 0xE0, 0x01, 0xF1, 0x01, 0xF1, 0x01]),
   ([0x1F, 0xFE, 0x1F, 0xFE, 0x0E, 0xFE, 0x0E, 0xFE], [0xFE, 0x1F, 0xFE, 0x1F, 0xFE, 0x0E, 0xFE, 0x0E]),
   ([0x01, 0x1F, 0x01, 0x1F, 0x01, 0x0E, 0x01, 0x0E], [0x1F, 0x01, 0x1F, 0x01, 0x0E, 0x01, 0x0E, 0x01]),
   ([0xE0, 0xFE, 0xE0, 0xFE, 0xF1, 0xFE, 0xF1, 0xFE], [0xFE, 0xE0, 0xFE, 0xE0, 0xFE, 0xF1, 0xFE, 0xF1])]

theorem weak_keys : ∀ kl ∈ weakPairs, kl.1.length = 8 ∧ kl.2.length = 8 ∧ keys (bits kl.2) = (keys (bits kl.1)).reverse := by decide +kernel

/-- C107: they are accepted as keys, and encrypting with one of a pair and then with the other gives the message back, every message. -/
theorem des_weak {k l : List Byte} (h : (k, l) ∈ weakPairs) (src : List Byte) (hs : src.length % 8 = 0) :
    ∃ x, encrypt (keySet k) src = some x ∧ encrypt (keySet l) x = some src := by
  obtain ⟨hk, hl, hr⟩ := weak_keys _ h
  obtain ⟨x, -, e1, -, e2, -⟩ := des_roundtrip k src hs
  refine ⟨x, e1, ?_⟩
  rw [← e2]
  obtain ⟨bs, hb, rfl⟩ := exists_blocks (src.length / 8) src (by omega)
  have hx := (des_blocks (keySet k) bs hb).1
  rw [e1, Option.some.injEq] at hx
  subst hx
  have hb' : ∀ b ∈ bs.map (encBlock (keySet k)), b.length = 8 := by
    intro b h; obtain ⟨a, _, rfl⟩ := List.mem_map.mp h; exact encBlock_length _ _
  rw [(des_blocks _ _ hb').1, (des_blocks _ _ hb').2]
  refine congrArg some (congrArg List.flatten (List.map_congr_left fun b _ => bits_inj (by simp only [encBlock_length, decBlock_length]) ?_))
  rw [(des_standard l k k b hl hk hk).1, (des_standard k l l b hk hl hl).2.1, enc, dec]
  exact congrArg (cipher · _) hr

example : ∃ x, encrypt (keySet (List.replicate 8 0x01)) (List.replicate 16 0x55) = some x ∧ encrypt (keySet (List.replicate 8 0x01)) x = some (List.replicate 16 0x55) :=
  des_weak (by decide) _ (by decide)

end Verif.Des
