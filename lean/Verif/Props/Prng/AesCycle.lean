import Verif.Props.Prng.Aes
import Mathlib.Tactic.Ring
/-!
# C114: the streams of the AES based generator
-/
namespace Verif.PrngAes
open Verif.Modes

theorem seg_length (key : List Byte) (n0 m k : Nat) : (seg key n0 m k).length = k := by
  rw [seg, List.length_map, List.length_range']

/-- One state for all sequences of requests. -/
theorem stream_all (lo : List Byte) (seed : Option (List Byte)) : ∃ s, init lo seed = some s ∧
    ∀ ns, requests s ns = seg (seedKey (seed.getD [])) (Modes.beVal (seedCtr (seed.getD []))) 0 ns.sum := by
  obtain ⟨c, s, h1, h2, h3⟩ := init_spec lo seed
  exact ⟨s, h2, fun ns => requests_spec (Or.inl (by simp [seedKey]; omega)) h1 ns 0 s h3⟩

/-- Two blocks of a stream, however the bytes before them were asked for, are equal exactly when their numbers are equal modulo 2^128. -/
theorem prngAes_blocks (lo : List Byte) (seed : Option (List Byte)) : ∃ s, init lo seed = some s ∧
    ∀ (i j : Nat) (ns ms : List Nat), ns.sum = 16 * i + 16 → ms.sum = 16 * j + 16 →
      ((requests s ns).drop (16 * i) = (requests s ms).drop (16 * j) ↔ i % 2 ^ 128 = j % 2 ^ 128) := by
  obtain ⟨s, h1, h2⟩ := stream_all lo seed
  refine ⟨s, h1, fun i j ns ms hn hm => ?_⟩
  generalize seedKey (seed.getD []) = key at h2
  generalize Modes.beVal (seedCtr (seed.getD [])) = n0 at h2
  have hb : ∀ i, (seg key n0 0 (16 * i + 16)).drop (16 * i) = AesS.encrypt key (encodeBE 16 (n0 + i)) := fun i => by
    rw [seg_add, List.drop_left' (seg_length _ _ _ _), seg_block _ _ _ _ (by omega) (le_refl _), List.take_of_length_le (by rw [encrypt_length]),
      show (0 + 16 * i) / 16 = i by omega]
  rw [h2, h2, hn, hm, hb, hb]
  have e : (256 : Nat) ^ 16 = 2 ^ 128 := by norm_num
  constructor
  · intro h
    have h' := congrArg (AesS.decrypt key) h
    rw [(Aes.fips_inverse key _ (encodeBE_length 16 _)).1, (Aes.fips_inverse key _ (encodeBE_length 16 _)).1] at h'
    have h'' := congrArg Modes.beVal h'
    rw [beVal_encodeBE, beVal_encodeBE, e] at h''
    omega
  · intro h
    rw [← encodeBE_mod 16 (n0 + i), ← encodeBE_mod 16 (n0 + j), e, Nat.add_mod, h, ← Nat.add_mod]

example : ([5, 0, 27] : List Nat).sum = 16 * 1 + 16 ∧ ([16] : List Nat).sum = 16 * 0 + 16 := by decide

/-- Seeds with the same first half give the same stream, from another place on: the second half only tells where the cycle is entered. -/
theorem prngAes_shift (key ctr ctr' : List Byte) (hk : key.length = 16) (hc : ctr.length = 16) (hc' : ctr'.length = 16) : ∃ i < 2 ^ 128, ∀ lo lo',
    ∃ s s', init lo (some (key ++ ctr)) = some s ∧ init lo' (some (key ++ ctr')) = some s' ∧
      ∀ ns ms : List Nat, ns.sum = 16 * i + ms.sum → (requests s' ns).drop (16 * i) = requests s ms := by
  have hK : ∀ c, seedKey (key ++ c) = key := fun c => by
    rw [seedKey, List.take_left' hk, List.length_append, hk, show 16 - (16 + c.length) = 0 by omega, List.replicate_zero, List.append_nil]
  have hC : ∀ c : List Byte, c.length = 16 → seedCtr (key ++ c) = c := fun c h => by
    rw [seedCtr, List.drop_left' hk, List.take_append_of_le_length (by simp [h]), List.take_take, Nat.min_self, List.take_of_length_le (by omega)]
  have e : (256 : Nat) ^ 16 = 2 ^ 128 := by norm_num
  refine ⟨(Modes.beVal ctr + (2 ^ 128 - Modes.beVal ctr' % 2 ^ 128)) % 2 ^ 128, Nat.mod_lt _ (by norm_num), fun lo lo' => ?_⟩
  obtain ⟨s, h1, h2⟩ := stream_all lo (some (key ++ ctr))
  obtain ⟨s', h1', h2'⟩ := stream_all lo' (some (key ++ ctr'))
  refine ⟨s, s', h1, h1', fun ns ms h => ?_⟩
  rw [h2, h2', h, Option.getD_some, Option.getD_some, hK, hK, hC _ hc, hC _ hc']
  generalize hi : (Modes.beVal ctr + (2 ^ 128 - Modes.beVal ctr' % 2 ^ 128)) % 2 ^ 128 = i
  rw [seg_add, List.drop_left' (seg_length _ _ _ _)]
  apply List.ext_getElem
  · rw [seg_length, seg_length]
  · intro j _ _
    simp only [seg, List.getElem_map, List.getElem_range']
    rw [show (0 + 16 * i + 1 * j) / 16 = i + j / 16 by omega, show (0 + 16 * i + 1 * j) % 16 = (0 + 1 * j) % 16 by omega, show (0 + 1 * j) / 16 = j / 16 by omega,
      ← encodeBE_mod 16 (Modes.beVal ctr' + _), ← encodeBE_mod 16 (Modes.beVal ctr + _), e,
      show (Modes.beVal ctr' + (i + j / 16)) % 2 ^ 128 = (Modes.beVal ctr + j / 16) % 2 ^ 128 by omega]

/-- Bytes of the seed after the first 32 are not used, and zeros at its end are the same as nothing. -/
theorem prngAes_seed (lo lo' seed tail : List Byte) (h : 32 ≤ seed.length ∨ ∀ b ∈ tail, b = 0) :
    ∃ s s', init lo (some seed) = some s ∧ init lo' (some (seed ++ tail)) = some s' ∧ ∀ ns, requests s' ns = requests s ns := by
  obtain ⟨s, h1, h2⟩ := stream_all lo (some seed)
  obtain ⟨s', h1', h2'⟩ := stream_all lo' (some (seed ++ tail))
  refine ⟨s, s', h1, h1', fun ns => ?_⟩
  have key : ∀ n (l : List Byte), (l.take n ++ List.replicate (n - l.length) 0) = (l ++ List.replicate n 0).take n := fun n l => by
    rw [List.take_append, List.take_replicate, Nat.min_eq_left (by omega)]
  have hK : ∀ l : List Byte, seedKey l = ((l ++ List.replicate 32 0).take 32).take 16 := fun l => by
    rw [List.take_take, seedKey, key, List.take_append, List.take_append, List.take_replicate, List.take_replicate]
    congr 2; omega
  have hC : ∀ l : List Byte, seedCtr l = ((l ++ List.replicate 32 0).take 32).drop 16 := fun l => by
    rw [seedCtr, List.drop_take, List.drop_append, List.take_append, List.take_append, List.take_take, List.drop_replicate, List.take_replicate, List.take_replicate,
      List.length_take, List.length_drop]
    congr 2; omega
  have hp : ((seed ++ tail) ++ List.replicate 32 0).take 32 = (seed ++ List.replicate 32 0).take 32 := by
    rcases h with h | h
    · rw [List.append_assoc, List.take_append_of_le_length h, List.take_append_of_le_length h]
    · obtain ⟨n, rfl⟩ : ∃ n, tail = List.replicate n 0 := ⟨_, List.eq_replicate_of_mem h⟩
      rw [List.append_assoc, List.replicate_append_replicate, List.take_append, List.take_append, List.take_replicate, List.take_replicate]
      congr 2; omega
  rw [h2, h2', Option.getD_some, Option.getD_some, hK, hC, hp, ← hK, ← hC]

example : (32 ≤ (List.replicate 32 (7 : Byte)).length ∨ ∀ b ∈ ([1] : List Byte), b = 0) ∧ (32 ≤ ([7] : List Byte).length ∨ ∀ b ∈ ([0, 0] : List Byte), b = 0) := by decide

end Verif.PrngAes
