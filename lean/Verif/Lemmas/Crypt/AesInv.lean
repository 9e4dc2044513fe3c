import Verif.Lemmas.Crypt.Aes
/-! AES: inverse cipher, key inversion, key schedule. -/
namespace Verif.Aes
open Verif.AesS

theorem bxor_left_comm (a b c : Byte) : a ^^^ (b ^^^ c) = b ^^^ (a ^^^ c) := by ac_rfl
theorem bxor_self_left (a b : Byte) : a ^^^ (a ^^^ b) = b := by rw [← BitVec.xor_assoc, BitVec.xor_self, BitVec.zero_xor]
theorem xtime_zero : xtime 0 = 0 := rfl
theorem xor_zero' (a : Byte) : a ^^^ 0 = a := BitVec.xor_zero
theorem zero_xor' (a : Byte) : 0 ^^^ a = a := BitVec.zero_xor
theorem xor_self' (a : Byte) : a ^^^ a = 0 := BitVec.xor_self

theorem Col.split (x : Col) : x = (Col.mk x.b0 0 0 0).xor ((Col.mk 0 x.b1 0 0).xor ((Col.mk 0 0 x.b2 0).xor ⟨0, 0, 0, x.b3⟩)) := by
  simp only [Col.xor, xor_zero', zero_xor']

/-- An additive map of columns that fixes the columns with one non-zero byte is the identity. -/
theorem Col.id_of_additive {f : Col → Col} (h : ∀ x y, f (x.xor y) = (f x).xor (f y))
    (h0 : ∀ a, f ⟨a, 0, 0, 0⟩ = ⟨a, 0, 0, 0⟩) (h1 : ∀ a, f ⟨0, a, 0, 0⟩ = ⟨0, a, 0, 0⟩)
    (h2 : ∀ a, f ⟨0, 0, a, 0⟩ = ⟨0, 0, a, 0⟩) (h3 : ∀ a, f ⟨0, 0, 0, a⟩ = ⟨0, 0, 0, a⟩) (x : Col) : f x = x := by
  conv_lhs => rw [Col.split x]
  rw [h, h, h, h0, h1, h2, h3, ← Col.split x]

set_option maxHeartbeats 1000000 in
theorem invMixCol_mixCol (x : Col) : invMixCol (mixCol x) = x := by
  apply Col.id_of_additive (f := fun x => invMixCol (mixCol x))
  · intro x y; rw [mixCol_xor, invMixCol_xor]
  all_goals
    intro a
    simp only [invMixCol, mixCol, gmul2, gmul3, gmul9, gmulb, gmuld, gmule, xtime_xor, xtime_zero, xor_zero', zero_xor',
      Col.mk.injEq]
    refine ⟨?_, ?_, ?_, ?_⟩ <;>
    simp only [BitVec.xor_assoc, BitVec.xor_comm, bxor_left_comm, xor_self', bxor_self_left, xor_zero', zero_xor']

set_option maxHeartbeats 1000000 in
theorem mixCol_invMixCol (x : Col) : mixCol (invMixCol x) = x := by
  apply Col.id_of_additive (f := fun x => mixCol (invMixCol x))
  · intro x y; rw [invMixCol_xor, mixCol_xor]
  all_goals
    intro a
    simp only [invMixCol, mixCol, gmul2, gmul3, gmul9, gmulb, gmuld, gmule, xtime_xor, xtime_zero, xor_zero', zero_xor',
      Col.mk.injEq]
    refine ⟨?_, ?_, ?_, ?_⟩ <;>
    simp only [BitVec.xor_assoc, BitVec.xor_comm, bxor_left_comm, xor_self', bxor_self_left, xor_zero', zero_xor']

/-- `InvMixColumns` twice. -/
def imc2 (x : Col) : Col :=
  ⟨xtime (xtime x.b0) ^^^ x.b0 ^^^ xtime (xtime x.b2), xtime (xtime x.b1) ^^^ x.b1 ^^^ xtime (xtime x.b3),
   xtime (xtime x.b2) ^^^ x.b2 ^^^ xtime (xtime x.b0), xtime (xtime x.b3) ^^^ x.b3 ^^^ xtime (xtime x.b1)⟩

theorem imc2_xor (x y : Col) : imc2 (x.xor y) = (imc2 x).xor (imc2 y) := by
  simp only [imc2, Col.xor, xtime_xor, Col.mk.injEq]
  refine ⟨?_, ?_, ?_, ?_⟩ <;> ac_rfl

theorem mixCol_twice (x : Col) : mixCol (mixCol x) = imc2 x := by
  rw [Col.split x]
  simp only [mixCol_xor, imc2_xor]
  congr 1
  · simp only [mixCol, imc2, gmul2, gmul3, xtime_xor, xtime_zero, xor_zero', zero_xor', Col.mk.injEq]
    refine ⟨?_, ?_, ?_, ?_⟩ <;>
    simp only [BitVec.xor_assoc, BitVec.xor_comm, bxor_left_comm, xor_self', bxor_self_left, xor_zero', zero_xor']
  congr 1
  · simp only [mixCol, imc2, gmul2, gmul3, xtime_xor, xtime_zero, xor_zero', zero_xor', Col.mk.injEq]
    refine ⟨?_, ?_, ?_, ?_⟩ <;>
    simp only [BitVec.xor_assoc, BitVec.xor_comm, bxor_left_comm, xor_self', bxor_self_left, xor_zero', zero_xor']
  congr 1 <;>
  · simp only [mixCol, imc2, gmul2, gmul3, xtime_xor, xtime_zero, xor_zero', zero_xor', Col.mk.injEq]
    refine ⟨?_, ?_, ?_, ?_⟩ <;>
    simp only [BitVec.xor_assoc, BitVec.xor_comm, bxor_left_comm, xor_self', bxor_self_left, xor_zero', zero_xor']

theorem imc2_imc2 (x : Col) : imc2 (imc2 x) = x := by
  obtain ⟨a, b, c, d⟩ := x
  simp only [imc2, xtime_xor, Col.mk.injEq]
  refine ⟨?_, ?_, ?_, ?_⟩ <;>
  simp only [BitVec.xor_assoc, BitVec.xor_comm, bxor_left_comm, xor_self', bxor_self_left, xor_zero', zero_xor']

theorem invMixCol_twice (x : Col) : invMixCol (invMixCol x) = imc2 x := by
  have h : x = mixCol (mixCol (imc2 x)) := by rw [mixCol_twice, imc2_imc2]
  conv_lhs => rw [h]
  rw [invMixCol_mixCol, invMixCol_mixCol]

/-! ### S-boxes -/

theorem invSub_sub (b : Byte) : invSub (sub b) = b := by
  rw [← rsbox_eq, ← fsbox_eq]; revert b; decide +kernel
theorem sub_invSub (b : Byte) : sub (invSub b) = b := by
  rw [← rsbox_eq, ← fsbox_eq]; revert b; decide +kernel

/-! ### The inverse cipher undoes the cipher -/

theorem Col.xor_xor (x y : Col) : (x.xor y).xor y = x := by
  simp only [Col.xor, BitVec.xor_assoc, xor_self', xor_zero']

theorem addKey_addKey (w : Nat → Col) (r : Nat) (s : State) : addKey w r (addKey w r s) = s := by
  simp only [addKey, Col.xor_xor]

theorem shift_inv (s : State) : invShiftRows (shiftRows s) = s := rfl
theorem inv_shift (s : State) : shiftRows (invShiftRows s) = s := rfl
theorem sub_inv (s : State) : invSubBytes (subBytes s) = s := by
  simp only [invSubBytes, subBytes, State.map, Col.map, invSub_sub]
theorem inv_sub (s : State) : subBytes (invSubBytes s) = s := by
  simp only [invSubBytes, subBytes, State.map, Col.map, sub_invSub]
theorem mix_inv (s : State) : (s.map mixCol).map invMixCol = s := by simp only [State.map, invMixCol_mixCol]
theorem inv_mix (s : State) : (s.map invMixCol).map mixCol = s := by simp only [State.map, mixCol_invMixCol]

theorem invRounds_rounds (w : Nat → Col) : ∀ (n : Nat) (s : State),
    invRounds w n (shiftRows (subBytes (rounds w n s))) = shiftRows (subBytes s)
  | 0, _ => rfl
  | n + 1, s => by
    rw [rounds, invRounds, shift_inv, sub_inv, addKey_addKey, mix_inv, invRounds_rounds w n]

theorem rounds_invRounds (w : Nat → Col) : ∀ (n : Nat) (s : State),
    rounds w n (invSubBytes (invShiftRows (invRounds w n s))) = invSubBytes (invShiftRows s)
  | 0, _ => rfl
  | n + 1, s => by
    rw [rounds, invRounds, rounds_invRounds w n, inv_sub, inv_shift, inv_mix, addKey_addKey]

theorem invCipher_cipher (nr : Nat) (w : Nat → Col) (s : State) : invCipher nr w (cipher nr w s) = s := by
  rw [invCipher, cipher, addKey_addKey, invRounds_rounds, shift_inv, sub_inv, addKey_addKey]

theorem cipher_invCipher (nr : Nat) (w : Nat → Col) (s : State) : cipher nr w (invCipher nr w s) = s := by
  rw [invCipher, cipher, addKey_addKey, rounds_invRounds, inv_sub, inv_shift, addKey_addKey]

theorem load_store (s : State) : load (store s) = s := rfl
theorem store_length (s : State) : (store s).length = 16 := rfl
theorem store_load {l : List Byte} (h : l.length = 16) : store (load l) = l := by
  match l, h with
  | [a0, a1, a2, a3, a4, a5, a6, a7, a8, a9, a10, a11, a12, a13, a14, a15], _ => rfl

/-! ### Decryption -/

theorem invSub_shift (s : State) : invSubBytes (invShiftRows s) = invShiftRows (invSubBytes s) := rfl

/-- The decryption keys: round keys in reverse order, the inner ones through `InvMixColumns`. -/
def dkey (nr : Nat) (wk : Nat → Col) (j : Nat) : Col :=
  let k := wk (4 * (nr - j / 4) + j % 4)
  if 4 ≤ j ∧ j < 4 * nr then invMixCol k else k

theorem decRounds_spec (c : Ctx) (wk : Nat → Col) (nr : Nat) : ∀ (n i : Nat) (w : W), i + n + 1 = nr →
    (∀ j, j < 4 * (nr + 1) → colOf (c.key j) = dkey nr wk j) →
    stOf (decRounds c n (i + 1) w) = invRounds wk n (stOf w)
  | 0, i, w, _, _ => rfl
  | n + 1, i, w, hn, hk => by
    rw [decRounds, invRounds, decRounds_spec c wk nr n (i + 1) _ (by omega) hk]
    congr 1
    have e0 : dkey nr wk (4 * (i + 1)) = invMixCol (wk (4 * (n + 1))) := by
      rw [dkey]; rw [if_pos (by omega)]; congr 2; omega
    have e1 : dkey nr wk (4 * (i + 1) + 1) = invMixCol (wk (4 * (n + 1) + 1)) := by
      rw [dkey]; rw [if_pos (by omega)]; congr 2; omega
    have e2 : dkey nr wk (4 * (i + 1) + 2) = invMixCol (wk (4 * (n + 1) + 2)) := by
      rw [dkey]; rw [if_pos (by omega)]; congr 2; omega
    have e3 : dkey nr wk (4 * (i + 1) + 3) = invMixCol (wk (4 * (n + 1) + 3)) := by
      rw [dkey]; rw [if_pos (by omega)]; congr 2; omega
    simp only [stOf, colOf_xor, round_r]
    rw [hk _ (by omega), hk _ (by omega), hk _ (by omega), hk _ (by omega), e0, e1, e2, e3]
    simp only [addKey, State.map, invShiftRows, invSubBytes, Col.map, invMixCol_xor]
    rfl

theorem decBlock_spec (c : Ctx) (wk : Nat → Col) (hnr : 1 ≤ c.nr)
    (hk : ∀ j, j < 4 * (c.nr + 1) → colOf (c.key j) = dkey c.nr wk j)
    (src : List Byte) : decBlock c src = store (invCipher c.nr wk (load src)) := by
  unfold decBlock
  dsimp only
  have d0 (k : Nat) (h : k < 4) : dkey c.nr wk k = wk (4 * c.nr + k) := by
    rw [dkey]; rw [if_neg (by omega)]; congr 1; omega
  have d1 (k : Nat) (h : k < 4) : dkey c.nr wk (4 * c.nr + k) = wk k := by
    rw [dkey]; rw [if_neg (by omega)]; congr 1
    rw [show (4 * c.nr + k) / 4 = c.nr by omega]; omega
  have h := decRounds_spec c wk c.nr (c.nr - 1) 0
    ⟨word src 0 ^^^ c.key 0, word src 4 ^^^ c.key 1, word src 8 ^^^ c.key 2, word src 12 ^^^ c.key 3⟩
    (by omega) hk
  have h0 : stOf ⟨word src 0 ^^^ c.key 0, word src 4 ^^^ c.key 1, word src 8 ^^^ c.key 2, word src 12 ^^^ c.key 3⟩ =
      addKey wk c.nr (load src) := by
    simp only [stOf, colOf_xor, addKey, load]
    rw [hk 0 (by omega), hk 1 (by omega), hk 2 (by omega), hk 3 (by omega), d0 0 (by omega), d0 1 (by omega),
      d0 2 (by omega), d0 3 (by omega)]
    rw [← word_colOf src 0, ← word_colOf src 1, ← word_colOf src 2, ← word_colOf src 3]
    rfl
  rw [h0, Nat.zero_add] at h
  generalize decRounds c (c.nr - 1) 1 _ = w at h ⊢
  unfold invCipher
  rw [← h]
  simp only [write_colOf, colOf_xor, colOf_final, rsbox_eq]
  have k0 := hk (4 * c.nr) (by omega)
  rw [k0, hk (4 * c.nr + 1) (by omega), hk (4 * c.nr + 2) (by omega), hk (4 * c.nr + 3) (by omega),
    d1 1 (by omega), d1 2 (by omega), d1 3 (by omega), show dkey c.nr wk (4 * c.nr) = wk 0 from d1 0 (by omega)]
  rfl

end Verif.Aes
