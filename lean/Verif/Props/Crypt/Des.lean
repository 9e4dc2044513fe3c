import Verif.Lemmas.Crypt.DesBlock
/-!
# C34: DES and triple DES

The standard is `Verif.DesS` (Spec/Des.lean), written over lists of bits.
-/
namespace Verif.Des
open Verif.DesS

/-- The block function of the code is DES of the standard, in both directions. -/
theorem des_block (src key : List Byte) :
    bits (blockOperate src key true) = enc (bits key) (bits src) ∧
    bits (blockOperate src key false) = dec (bits key) (bits src) := ⟨operate_enc src key, operate_dec src key⟩

/-- The standard's worked example. -/
example : blockOperate [0x01, 0x23, 0x45, 0x67, 0x89, 0xAB, 0xCD, 0xEF] [0x13, 0x34, 0x57, 0x79, 0x9B, 0xBC, 0xDF, 0xF1] true =
    [0x85, 0xE8, 0x13, 0x54, 0x0F, 0x0A, 0xB4, 0x05] := by decide +kernel

/-- Single DES satisfies the complementation property: flipping every bit of the key and of the block flips every bit
of the result. -/
theorem des_complement (src key : List Byte) (hs : src.length = 8) (hk : key.length = 8) (e : Bool) :
    blockOperate (src.map (~~~ ·)) (key.map (~~~ ·)) e = (blockOperate src key e).map (~~~ ·) := by
  apply bits_inj (by rw [List.length_map, blockOperate_length, blockOperate_length])
  have hb : (bits src).length = 64 := by rw [bits_length, hs]
  have hc : (bits key).length = 64 := by rw [bits_length, hk]
  cases e
  · rw [operate_dec, bits_not, bits_not, bits_not, operate_dec, dec_cpl hc hb]
  · rw [operate_enc, bits_not, bits_not, bits_not, operate_enc, enc_cpl hc hb]

theorem operate_inv (src key : List Byte) (hs : src.length = 8) (e : Bool) :
    blockOperate (blockOperate src key e) key (!e) = src := by
  apply bits_inj (by rw [blockOperate_length, hs])
  have hb : (bits src).length = 64 := by rw [bits_length, hs]
  cases e
  · rw [Bool.not_false, operate_enc, operate_dec, enc_dec _ hb]
  · rw [Bool.not_true, operate_dec, operate_enc, dec_enc _ hb]

theorem encBlock_length (c : Ctx) (src : List Byte) : (encBlock c src).length = 8 := by
  unfold encBlock; dsimp only; split_ifs <;> exact blockOperate_length _ _ _

theorem decBlock_length (c : Ctx) (src : List Byte) : (decBlock c src).length = 8 := by
  unfold decBlock; dsimp only; split_ifs <;> exact blockOperate_length _ _ _

theorem dec_encBlock (c : Ctx) (src : List Byte) (hs : src.length = 8) : decBlock c (encBlock c src) = src := by
  unfold decBlock encBlock
  dsimp only
  split_ifs
  · rw [show false = !true from rfl, operate_inv _ _ (blockOperate_length _ _ _),
      show blockOperate (blockOperate (blockOperate src (c.key.take 8) true) ((c.key.drop 8).take 8) (!true))
        ((c.key.drop 8).take 8) true = blockOperate src (c.key.take 8) true from
        operate_inv _ _ (blockOperate_length _ _ _) false, operate_inv _ _ hs true]
  · exact operate_inv _ _ hs true

theorem enc_decBlock (c : Ctx) (src : List Byte) (hs : src.length = 8) : encBlock c (decBlock c src) = src := by
  unfold decBlock encBlock
  dsimp only
  split_ifs
  · rw [show true = !false from rfl, operate_inv _ _ (blockOperate_length _ _ _) false,
      show blockOperate (blockOperate (blockOperate src ((c.key.drop 16).take 8) false) ((c.key.drop 8).take 8) (!false))
        ((c.key.drop 8).take 8) false = _ from operate_inv _ _ (blockOperate_length _ _ _) true]
    exact operate_inv _ _ hs false
  · exact operate_inv _ _ hs false

theorem loop_blocks (op : List Byte → List Byte) : ∀ (bs : List (List Byte)) (n : Nat), bs.length ≤ n →
    (∀ b ∈ bs, b.length = 8) → loop op n bs.flatten = some (bs.map op).flatten := by
  intro bs
  induction bs with
  | nil => intro n _ _; cases n <;> rfl
  | cons b bs ih =>
    intro n hn hb
    obtain ⟨n, rfl⟩ : ∃ m, n = m + 1 := ⟨n - 1, by simp only [List.length_cons] at hn; omega⟩
    have h8 := hb b (by simp)
    have hne : (b :: bs).flatten ≠ [] := by
      rw [List.flatten_cons]
      intro h
      have := congrArg List.length h
      rw [List.length_append, h8, List.length_nil] at this
      omega
    have hl : ¬ (b :: bs).flatten.length < 8 := by rw [List.flatten_cons, List.length_append, h8]; omega
    have ht : (b :: bs).flatten.take 8 = b := by rw [List.flatten_cons, List.take_left' h8]
    have hd : (b :: bs).flatten.drop 8 = bs.flatten := by rw [List.flatten_cons, List.drop_left' h8]
    rw [loop, if_neg hl, ht, hd, ih n (by simp only [List.length_cons] at hn; omega) (fun x hx => hb x (by simp [hx]))]
    · rfl
    · exact hne

theorem flatten_length8 : ∀ (bs : List (List Byte)), (∀ b ∈ bs, b.length = 8) → bs.flatten.length = 8 * bs.length
  | [], _ => rfl
  | b :: bs, h => by
    rw [List.flatten_cons, List.length_append, h b (by simp), flatten_length8 bs (fun x hx => h x (by simp [hx])),
      List.length_cons]
    omega

theorem loop_undefined (op : List Byte → List Byte) : ∀ (n : Nat) (src : List Byte), src.length % 8 ≠ 0 →
    loop op n src = none := by
  intro n
  induction n with
  | zero => intro src h; cases src with
    | nil => simp at h
    | cons a l => rfl
  | succ n ih =>
    intro src h
    have hne : src ≠ [] := by rintro rfl; simp at h
    rw [loop]
    · by_cases h8 : src.length < 8
      · rw [if_pos h8]
      · rw [if_neg h8, ih _ (by rw [List.length_drop]; omega)]
        rfl
    · exact hne

/-- Messages are sequences of blocks: what `cry_des_encrypt` and `cry_des_decrypt` compute, for every context. -/
theorem des_blocks (c : Ctx) (bs : List (List Byte)) (hb : ∀ b ∈ bs, b.length = 8) :
    encrypt c bs.flatten = some (bs.map (encBlock c)).flatten ∧
    decrypt c bs.flatten = some (bs.map (decBlock c)).flatten := by
  have : bs.length ≤ bs.flatten.length := by rw [flatten_length8 bs hb]; omega
  exact ⟨loop_blocks _ bs _ this hb, loop_blocks _ bs _ this hb⟩

/-- A list whose length is a multiple of eight is a sequence of blocks. -/
theorem exists_blocks : ∀ (n : Nat) (src : List Byte), src.length = 8 * n →
    ∃ bs : List (List Byte), (∀ b ∈ bs, b.length = 8) ∧ src = bs.flatten
  | 0, src, h => ⟨[], by simp, by rw [List.length_eq_zero_iff.mp h]; rfl⟩
  | n + 1, src, h => by
    obtain ⟨bs, h1, h2⟩ := exists_blocks n (src.drop 8) (by rw [List.length_drop, h]; omega)
    refine ⟨src.take 8 :: bs, ?_, by rw [List.flatten_cons, ← h2, List.take_append_drop]⟩
    intro b hb
    rcases List.mem_cons.mp hb with rfl | hb
    · rw [List.length_take, h]; omega
    · exact h1 b hb

/-- With an 8-byte key each block is enciphered with DES; with a 24-byte key `k1 k2 k3` it is enciphered under `k1`,
deciphered under `k2` and enciphered under `k3`. -/
theorem des_standard (k1 k2 k3 b : List Byte) (h1 : k1.length = 8) (h2 : k2.length = 8) (h3 : k3.length = 8) :
    bits (encBlock (keySet k1) b) = enc (bits k1) (bits b) ∧
    bits (decBlock (keySet k1) b) = dec (bits k1) (bits b) ∧
    bits (encBlock (keySet (k1 ++ k2 ++ k3)) b) = enc (bits k3) (dec (bits k2) (enc (bits k1) (bits b))) ∧
    bits (decBlock (keySet (k1 ++ k2 ++ k3)) b) = dec (bits k1) (enc (bits k2) (dec (bits k3) (bits b))) := by
  have e1 : keySet k1 = ⟨8, k1 ++ List.replicate 16 0⟩ := by
    unfold keySet; dsimp only; rw [h1, if_neg (by omega), List.take_of_length_le (l := k1) (by omega)]
  have hl : (k1 ++ k2 ++ k3).length = 24 := by simp [h1, h2, h3]
  have e3 : keySet (k1 ++ k2 ++ k3) = ⟨24, k1 ++ k2 ++ k3⟩ := by
    unfold keySet; dsimp only
    rw [hl, if_neg (by omega), List.take_of_length_le (l := k1 ++ k2 ++ k3) (by omega), List.replicate_zero, List.append_nil]
  have t1 : (k1 ++ k2 ++ k3).take 8 = k1 := by rw [List.append_assoc, List.take_left' h1]
  have t2 : ((k1 ++ k2 ++ k3).drop 8).take 8 = k2 := by
    rw [List.append_assoc, List.drop_left' h1, List.take_left' h2]
  have t3 : ((k1 ++ k2 ++ k3).drop 16).take 8 = k3 := by
    rw [List.drop_left' (by simp [h1, h2]), List.take_of_length_le (by omega)]
  have t0 : (k1 ++ List.replicate 16 (0 : Byte)).take 8 = k1 := List.take_left' h1
  rw [e1, e3]
  unfold encBlock decBlock
  dsimp only
  rw [if_neg (by omega), if_neg (by omega), if_pos rfl, if_pos rfl, t0, t1, t2, t3]
  simp only [operate_enc, operate_dec, and_self]

/-- Decryption restores what encryption produced, and the other way round, for every key of any length and every
message of whole blocks; both calls succeed. -/
theorem des_roundtrip (key src : List Byte) (hs : src.length % 8 = 0) :
    ∃ x y, encrypt (keySet key) src = some x ∧ x.length = src.length ∧ decrypt (keySet key) x = some src ∧
      decrypt (keySet key) src = some y ∧ y.length = src.length ∧ encrypt (keySet key) y = some src := by
  obtain ⟨bs, hb, rfl⟩ := exists_blocks (src.length / 8) src (by omega)
  have he : ∀ b ∈ bs.map (encBlock (keySet key)), b.length = 8 := by
    intro b h; obtain ⟨a, _, rfl⟩ := List.mem_map.mp h; exact encBlock_length _ _
  have hd : ∀ b ∈ bs.map (decBlock (keySet key)), b.length = 8 := by
    intro b h; obtain ⟨a, _, rfl⟩ := List.mem_map.mp h; exact decBlock_length _ _
  refine ⟨_, _, (des_blocks _ bs hb).1, ?_, ?_, (des_blocks _ bs hb).2, ?_, ?_⟩
  · rw [flatten_length8 _ he, flatten_length8 _ hb, List.length_map]
  · rw [(des_blocks _ _ he).2, List.map_map, List.map_congr_left (g := id), List.map_id]
    intro b h; exact dec_encBlock _ _ (hb b h)
  · rw [flatten_length8 _ hd, flatten_length8 _ hb, List.length_map]
  · rw [(des_blocks _ _ hd).1, List.map_map, List.map_congr_left (g := id), List.map_id]
    intro b h; exact enc_decBlock _ _ (hb b h)

/-- A message that is not a sequence of whole blocks makes the loop run past its end. -/
theorem des_undefined (c : Ctx) (src : List Byte) (hs : src.length % 8 ≠ 0) :
    encrypt c src = none ∧ decrypt c src = none := ⟨loop_undefined _ _ _ hs, loop_undefined _ _ _ hs⟩

example : ([1, 2, 3] : List Byte).length % 8 ≠ 0 := by decide

example : encrypt (keySet ((List.range 24).map (BitVec.ofNat 8))) (List.replicate 16 0) ≠ none := by decide +kernel

end Verif.Des
