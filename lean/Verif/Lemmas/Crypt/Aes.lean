import Verif.Model.Crypt.Aes
import Verif.Spec.Aes
import Verif.Lemmas.Bytes
import Mathlib.Tactic.Set
/-! AES: tables against GF(2^8) arithmetic, rounds, inverse cipher, key schedule. -/
namespace Verif.Aes
open Verif.AesS

/-! ### Words as columns -/

/-- The column of a little-endian word. -/
def colOf (w : BitVec 32) : Col := ⟨i0 w, i1 w, i2 w, i3 w⟩
def stOf (w : W) : State := ⟨colOf w.w0, colOf w.w1, colOf w.w2, colOf w.w3⟩

theorem i0_xor (a b : BitVec 32) : i0 (a ^^^ b) = i0 a ^^^ i0 b := by
  apply BitVec.eq_of_getLsbD_eq; intro i hi
  simp only [i0, BitVec.getLsbD_setWidth, BitVec.getLsbD_and, BitVec.getLsbD_xor]
  interval_cases i <;> simp
theorem i1_xor (a b : BitVec 32) : i1 (a ^^^ b) = i1 a ^^^ i1 b := by
  apply BitVec.eq_of_getLsbD_eq; intro i hi
  simp only [i1, BitVec.getLsbD_setWidth, BitVec.getLsbD_and, BitVec.getLsbD_xor, BitVec.getLsbD_ushiftRight]
  interval_cases i <;> simp
theorem i2_xor (a b : BitVec 32) : i2 (a ^^^ b) = i2 a ^^^ i2 b := by
  apply BitVec.eq_of_getLsbD_eq; intro i hi
  simp only [i2, BitVec.getLsbD_setWidth, BitVec.getLsbD_and, BitVec.getLsbD_xor, BitVec.getLsbD_ushiftRight]
  interval_cases i <;> simp
theorem i3_xor (a b : BitVec 32) : i3 (a ^^^ b) = i3 a ^^^ i3 b := by
  apply BitVec.eq_of_getLsbD_eq; intro i hi
  simp only [i3, BitVec.getLsbD_setWidth, BitVec.getLsbD_and, BitVec.getLsbD_xor, BitVec.getLsbD_ushiftRight]
  interval_cases i <;> simp

theorem colOf_xor (a b : BitVec 32) : colOf (a ^^^ b) = (colOf a).xor (colOf b) := by
  simp only [colOf, Col.xor, i0_xor, i1_xor, i2_xor, i3_xor]

theorem colOf_read (a b c d : Byte) : colOf (read32le a b c d) = ⟨a, b, c, d⟩ := by
  simp only [colOf, Col.mk.injEq]
  refine ⟨?_, ?_, ?_, ?_⟩ <;>
  (apply BitVec.eq_of_getLsbD_eq; intro i hi
   simp only [i0, i1, i2, i3, read32le, BitVec.getLsbD_setWidth, BitVec.getLsbD_and, BitVec.getLsbD_or,
     BitVec.getLsbD_ushiftRight, BitVec.getLsbD_shiftLeft]
   interval_cases i <;> simp)

theorem read_colOf (w : BitVec 32) : read32le (i0 w) (i1 w) (i2 w) (i3 w) = w := by
  apply BitVec.eq_of_getLsbD_eq; intro i hi
  simp only [i0, i1, i2, i3, read32le, BitVec.getLsbD_setWidth, BitVec.getLsbD_and, BitVec.getLsbD_or,
     BitVec.getLsbD_ushiftRight, BitVec.getLsbD_shiftLeft]
  interval_cases i <;> simp

theorem colOf_inj {a b : BitVec 32} (h : colOf a = colOf b) : a = b := by
  simp only [colOf, Col.mk.injEq] at h
  rw [← read_colOf a, ← read_colOf b, h.1, h.2.1, h.2.2.1, h.2.2.2]

theorem write_colOf (w : BitVec 32) : write32le w = (colOf w).bytes := rfl

theorem final_eq (sbox : List Byte) (w0 w1 w2 w3 : BitVec 32) :
    final sbox w0 w1 w2 w3 =
      read32le (look sbox (i0 w0)) (look sbox (i1 w1)) (look sbox (i2 w2)) (look sbox (i3 w3)) := by
  apply BitVec.eq_of_getLsbD_eq; intro i hi
  simp only [final, read32le, BitVec.getLsbD_or]
  generalize BitVec.getLsbD _ i = a
  generalize BitVec.getLsbD _ i = b
  generalize BitVec.getLsbD _ i = c
  generalize BitVec.getLsbD _ i = d
  cases a <;> cases b <;> cases c <;> cases d <;> rfl

theorem colOf_final (sbox : List Byte) (w0 w1 w2 w3 : BitVec 32) :
    colOf (final sbox w0 w1 w2 w3) =
      ⟨look sbox (i0 w0), look sbox (i1 w1), look sbox (i2 w2), look sbox (i3 w3)⟩ := by
  rw [final_eq, colOf_read]

theorem colOf_rotl24 (w : BitVec 32) : colOf (rotl32 w 24) = rotWord (colOf w) := by
  simp only [colOf, rotWord, Col.mk.injEq]
  refine ⟨?_, ?_, ?_, ?_⟩ <;>
  (apply BitVec.eq_of_getLsbD_eq; intro i hi
   simp only [i0, i1, i2, i3, rotl32, BitVec.getLsbD_setWidth, BitVec.getLsbD_and, BitVec.getLsbD_or,
     BitVec.getLsbD_ushiftRight, BitVec.getLsbD_shiftLeft]
   interval_cases i <;> simp)

/-! ### Tables -/

theorem tables_length : fsbox.length = 256 ∧ rsbox.length = 256 ∧ ftabC.length = 256 ∧ rtabC.length = 256 ∧
    mtab.length = 256 := by decide +kernel

/-- Inverses in GF(2^8), as a table to avoid computing them again. -/
def invTab : List Byte := [
  0x00, 0x01, 0x8d, 0xf6, 0xcb, 0x52, 0x7b, 0xd1, 0xe8, 0x4f, 0x29, 0xc0, 0xb0, 0xe1, 0xe5, 0xc7,
  0x74, 0xb4, 0xaa, 0x4b, 0x99, 0x2b, 0x60, 0x5f, 0x58, 0x3f, 0xfd, 0xcc, 0xff, 0x40, 0xee, 0xb2,
  0x3a, 0x6e, 0x5a, 0xf1, 0x55, 0x4d, 0xa8, 0xc9, 0xc1, 0x0a, 0x98, 0x15, 0x30, 0x44, 0xa2, 0xc2,
  0x2c, 0x45, 0x92, 0x6c, 0xf3, 0x39, 0x66, 0x42, 0xf2, 0x35, 0x20, 0x6f, 0x77, 0xbb, 0x59, 0x19,
  0x1d, 0xfe, 0x37, 0x67, 0x2d, 0x31, 0xf5, 0x69, 0xa7, 0x64, 0xab, 0x13, 0x54, 0x25, 0xe9, 0x09,
  0xed, 0x5c, 0x05, 0xca, 0x4c, 0x24, 0x87, 0xbf, 0x18, 0x3e, 0x22, 0xf0, 0x51, 0xec, 0x61, 0x17,
  0x16, 0x5e, 0xaf, 0xd3, 0x49, 0xa6, 0x36, 0x43, 0xf4, 0x47, 0x91, 0xdf, 0x33, 0x93, 0x21, 0x3b,
  0x79, 0xb7, 0x97, 0x85, 0x10, 0xb5, 0xba, 0x3c, 0xb6, 0x70, 0xd0, 0x06, 0xa1, 0xfa, 0x81, 0x82,
  0x83, 0x7e, 0x7f, 0x80, 0x96, 0x73, 0xbe, 0x56, 0x9b, 0x9e, 0x95, 0xd9, 0xf7, 0x02, 0xb9, 0xa4,
  0xde, 0x6a, 0x32, 0x6d, 0xd8, 0x8a, 0x84, 0x72, 0x2a, 0x14, 0x9f, 0x88, 0xf9, 0xdc, 0x89, 0x9a,
  0xfb, 0x7c, 0x2e, 0xc3, 0x8f, 0xb8, 0x65, 0x48, 0x26, 0xc8, 0x12, 0x4a, 0xce, 0xe7, 0xd2, 0x62,
  0x0c, 0xe0, 0x1f, 0xef, 0x11, 0x75, 0x78, 0x71, 0xa5, 0x8e, 0x76, 0x3d, 0xbd, 0xbc, 0x86, 0x57,
  0x0b, 0x28, 0x2f, 0xa3, 0xda, 0xd4, 0xe4, 0x0f, 0xa9, 0x27, 0x53, 0x04, 0x1b, 0xfc, 0xac, 0xe6,
  0x7a, 0x07, 0xae, 0x63, 0xc5, 0xdb, 0xe2, 0xea, 0x94, 0x8b, 0xc4, 0xd5, 0x9d, 0xf8, 0x90, 0x6b,
  0xb1, 0x0d, 0xd6, 0xeb, 0xc6, 0x0e, 0xcf, 0xad, 0x08, 0x4e, 0xd7, 0xe3, 0x5d, 0x50, 0x1e, 0xb3,
  0x5b, 0x23, 0x38, 0x34, 0x68, 0x46, 0x03, 0x8c, 0xdd, 0x9c, 0x7d, 0xa0, 0xcd, 0x1a, 0x41, 0x1c]

theorem ginv_eq : ∀ b : Byte, ginv b = look invTab b := by decide +kernel

theorem fsbox_eq (b : Byte) : look fsbox b = sub b := by
  rw [sub, ginv_eq]; revert b; decide +kernel
theorem rsbox_eq (b : Byte) : look rsbox b = invSub b := by
  rw [invSub, ginv_eq]; revert b; decide +kernel

theorem gmul2 (a : Byte) : gmul 2 a = xtime a := by revert a; decide +kernel
theorem gmul3 (a : Byte) : gmul 3 a = xtime a ^^^ a := by revert a; decide +kernel
theorem gmul9 (a : Byte) : gmul 9 a = xtime (xtime (xtime a)) ^^^ a := by revert a; decide +kernel
theorem gmulb (a : Byte) : gmul 0xb a = xtime (xtime (xtime a)) ^^^ (xtime a ^^^ a) := by revert a; decide +kernel
theorem gmuld (a : Byte) : gmul 0xd a = xtime (xtime (xtime a)) ^^^ (xtime (xtime a) ^^^ a) := by
  revert a; decide +kernel
theorem gmule (a : Byte) : gmul 0xe a = xtime (xtime (xtime a)) ^^^ (xtime (xtime a) ^^^ xtime a) := by
  revert a; decide +kernel

theorem look_map {n m : Nat} {t : List (BitVec n)} (h : t.length = 256) (f : BitVec n → BitVec m) (b : Byte) :
    look (t.map f) b = f (look t b) := by
  have hb : b.toNat < t.length := by rw [h]; exact b.isLt
  unfold look
  rw [List.getD_eq_getElem?_getD, List.getD_eq_getElem?_getD, List.getElem?_map, List.getElem?_eq_getElem hb]
  rfl

theorem look_range {n : Nat} {t : List (BitVec n)} {f : Byte → BitVec n}
    (h : t = (List.range 256).map (fun i => f (BitVec.ofNat 8 i))) (b : Byte) : look t b = f b := by
  unfold look
  rw [h, List.getD_eq_getElem?_getD, List.getElem?_map, List.getElem?_range b.isLt]
  simp

/-- The column `(3y, y, y, 2y)` from high to low byte. -/
def fcol (y : Byte) : BitVec 32 := read32le (xtime y) y y (xtime y ^^^ y)
/-- The column `(11y, 13y, 9y, 14y)` from high to low byte. -/
def rcol (y : Byte) : BitVec 32 :=
  let y2 := xtime y
  let y4 := xtime y2
  let y8 := xtime y4
  read32le (y8 ^^^ (y4 ^^^ y2)) (y8 ^^^ y) (y8 ^^^ (y4 ^^^ y)) (y8 ^^^ (y2 ^^^ y))

theorem ftabC_eq : ftabC = fsbox.map fcol := by decide +kernel
theorem rtabC_eq : rtabC = rsbox.map rcol := by decide +kernel
theorem mtab_eq : mtab = (List.range 256).map (fun i => rcol (BitVec.ofNat 8 i)) := by decide +kernel

theorem colOf_fcol (y : Byte) : colOf (fcol y) = ⟨gmul 2 y, y, y, gmul 3 y⟩ := by
  rw [fcol, colOf_read, gmul2, gmul3]
theorem colOf_rcol (y : Byte) : colOf (rcol y) = ⟨gmul 0xe y, gmul 9 y, gmul 0xd y, gmul 0xb y⟩ := by
  rw [rcol, colOf_read, gmul9, gmulb, gmuld, gmule]

theorem colOf_rotl8 (w : BitVec 32) : colOf (rotl32 w 8) = ⟨i3 w, i0 w, i1 w, i2 w⟩ := by
  simp only [colOf, Col.mk.injEq]
  refine ⟨?_, ?_, ?_, ?_⟩ <;>
  (apply BitVec.eq_of_getLsbD_eq; intro i hi
   simp only [i0, i1, i2, i3, rotl32, BitVec.getLsbD_setWidth, BitVec.getLsbD_and, BitVec.getLsbD_or,
     BitVec.getLsbD_ushiftRight, BitVec.getLsbD_shiftLeft]
   interval_cases i <;> simp)
theorem colOf_rotl16 (w : BitVec 32) : colOf (rotl32 w 16) = ⟨i2 w, i3 w, i0 w, i1 w⟩ := by
  simp only [colOf, Col.mk.injEq]
  refine ⟨?_, ?_, ?_, ?_⟩ <;>
  (apply BitVec.eq_of_getLsbD_eq; intro i hi
   simp only [i0, i1, i2, i3, rotl32, BitVec.getLsbD_setWidth, BitVec.getLsbD_and, BitVec.getLsbD_or,
     BitVec.getLsbD_ushiftRight, BitVec.getLsbD_shiftLeft]
   interval_cases i <;> simp)

theorem rot_cols {w : BitVec 32} {a b c d : Byte} (h : colOf w = ⟨a, b, c, d⟩) :
    colOf (rotl32 w 8) = ⟨d, a, b, c⟩ ∧ colOf (rotl32 w 16) = ⟨c, d, a, b⟩ ∧ colOf (rotl32 w 24) = ⟨b, c, d, a⟩ := by
  rw [colOf_rotl8, colOf_rotl16, colOf_rotl24, h]
  simp only [colOf, Col.mk.injEq] at h
  obtain ⟨h0, h1, h2, h3⟩ := h
  rw [h0, h1, h2, h3]
  exact ⟨rfl, rfl, rfl⟩

theorem ftab0_eq (b : Byte) : colOf (look ftabC b) = ⟨gmul 2 (sub b), sub b, sub b, gmul 3 (sub b)⟩ := by
  rw [ftabC_eq, look_map tables_length.1, colOf_fcol, fsbox_eq]
theorem ftab1_eq (b : Byte) : colOf (tabK ftabC 1 b) = ⟨gmul 3 (sub b), gmul 2 (sub b), sub b, sub b⟩ :=
  (rot_cols (ftab0_eq b)).1
theorem ftab2_eq (b : Byte) : colOf (tabK ftabC 2 b) = ⟨sub b, gmul 3 (sub b), gmul 2 (sub b), sub b⟩ :=
  (rot_cols (ftab0_eq b)).2.1
theorem ftab3_eq (b : Byte) : colOf (tabK ftabC 3 b) = ⟨sub b, sub b, gmul 3 (sub b), gmul 2 (sub b)⟩ :=
  (rot_cols (ftab0_eq b)).2.2

theorem rtab0_eq (b : Byte) : colOf (look rtabC b) =
    ⟨gmul 0xe (invSub b), gmul 9 (invSub b), gmul 0xd (invSub b), gmul 0xb (invSub b)⟩ := by
  rw [rtabC_eq, look_map tables_length.2.1, colOf_rcol, rsbox_eq]
theorem rtab1_eq (b : Byte) : colOf (tabK rtabC 1 b) =
    ⟨gmul 0xb (invSub b), gmul 0xe (invSub b), gmul 9 (invSub b), gmul 0xd (invSub b)⟩ :=
  (rot_cols (rtab0_eq b)).1
theorem rtab2_eq (b : Byte) : colOf (tabK rtabC 2 b) =
    ⟨gmul 0xd (invSub b), gmul 0xb (invSub b), gmul 0xe (invSub b), gmul 9 (invSub b)⟩ :=
  (rot_cols (rtab0_eq b)).2.1
theorem rtab3_eq (b : Byte) : colOf (tabK rtabC 3 b) =
    ⟨gmul 9 (invSub b), gmul 0xd (invSub b), gmul 0xb (invSub b), gmul 0xe (invSub b)⟩ :=
  (rot_cols (rtab0_eq b)).2.2
theorem mtab0_eq (b : Byte) : colOf (look mtab b) = ⟨gmul 0xe b, gmul 9 b, gmul 0xd b, gmul 0xb b⟩ := by
  rw [look_range mtab_eq, colOf_rcol]
theorem mtab1_eq (b : Byte) : colOf (rotl32 (look mtab b) 8) = ⟨gmul 0xb b, gmul 0xe b, gmul 9 b, gmul 0xd b⟩ :=
  (rot_cols (mtab0_eq b)).1
theorem mtab2_eq (b : Byte) : colOf (rotl32 (look mtab b) 16) = ⟨gmul 0xd b, gmul 0xb b, gmul 0xe b, gmul 9 b⟩ :=
  (rot_cols (mtab0_eq b)).2.1
theorem mtab3_eq (b : Byte) : colOf (rotl32 (look mtab b) 24) = ⟨gmul 9 b, gmul 0xd b, gmul 0xb b, gmul 0xe b⟩ :=
  (rot_cols (mtab0_eq b)).2.2

/-! ### Rounds -/

theorem round_f (w0 w1 w2 w3 : BitVec 32) :
    colOf (round ftabC w0 w1 w2 w3) = mixCol ⟨sub (i0 w0), sub (i1 w1), sub (i2 w2), sub (i3 w3)⟩ := by
  simp only [round, colOf_xor, ftab0_eq, ftab1_eq, ftab2_eq, ftab3_eq, mixCol, Col.xor]

theorem round_r (w0 w1 w2 w3 : BitVec 32) :
    colOf (round rtabC w0 w1 w2 w3) = invMixCol ⟨invSub (i0 w0), invSub (i1 w1), invSub (i2 w2), invSub (i3 w3)⟩ := by
  simp only [round, colOf_xor, rtab0_eq, rtab1_eq, rtab2_eq, rtab3_eq, invMixCol, Col.xor]

theorem invWord_eq (k : BitVec 32) : colOf (invWord k) = invMixCol (colOf k) := by
  have h2 : (k >>> 8 >>> 8) = k >>> 16 := by rw [← BitVec.shiftRight_add]
  have h3 : (k >>> 16 >>> 8) = k >>> 24 := by rw [← BitVec.shiftRight_add]
  simp only [invWord, colOf_xor, h2, h3, mtab0_eq, mtab1_eq, mtab2_eq, mtab3_eq, invMixCol, Col.xor]
  rfl

theorem encRounds_spec (c : Ctx) (wk : Nat → Col) (s0 : State) : ∀ (n i : Nat) (w : W),
    (∀ j, j < 4 * (i + n + 1) → colOf (c.key j) = wk j) → stOf w = rounds wk i s0 →
    stOf (encRounds c n (i + 1) w) = rounds wk (i + n) s0
  | 0, i, w, _, h => h
  | n + 1, i, w, hk, h => by
    rw [encRounds, show i + (n + 1) = (i + 1) + n by omega]
    apply encRounds_spec c wk s0 n (i + 1) _ (fun j hj => hk j (by omega))
    rw [rounds, ← h]
    simp only [stOf, colOf_xor, round_f, addKey, State.map, shiftRows, subBytes, Col.map]
    rw [hk _ (by omega), hk _ (by omega), hk _ (by omega), hk _ (by omega)]
    rfl

theorem word_colOf (l : List Byte) (i : Nat) : colOf (word l (4 * i)) = colAt l i := by
  rw [word, colOf_read]; rfl

theorem encBlock_spec (c : Ctx) (wk : Nat → Col) (hnr : 1 ≤ c.nr) (hk : ∀ j, j < 4 * (c.nr + 1) → colOf (c.key j) = wk j)
    (src : List Byte) : encBlock c src = store (cipher c.nr wk (load src)) := by
  unfold encBlock
  dsimp only
  have h := encRounds_spec c wk (addKey wk 0 (load src)) (c.nr - 1) 0
    ⟨word src 0 ^^^ c.key 0, word src 4 ^^^ c.key 1, word src 8 ^^^ c.key 2, word src 12 ^^^ c.key 3⟩
    (fun j hj => hk j (by omega)) (by
      simp only [stOf, colOf_xor, rounds, addKey, load, Nat.mul_zero, Nat.zero_add]
      rw [hk 0 (by omega), hk 1 (by omega), hk 2 (by omega), hk 3 (by omega)]
      rw [← word_colOf src 0, ← word_colOf src 1, ← word_colOf src 2, ← word_colOf src 3])
  rw [Nat.zero_add, Nat.zero_add] at h
  generalize encRounds c (c.nr - 1) 1 _ = w at h ⊢
  unfold cipher
  rw [← h]
  simp only [write_colOf, colOf_xor, colOf_final, fsbox_eq]
  rw [hk _ (by omega), hk _ (by omega), hk _ (by omega), hk _ (by omega)]
  rfl

/-! ### GF(2^8) linearity -/

theorem xtime_xor : ∀ a b : Byte, xtime (a ^^^ b) = xtime a ^^^ xtime b := by
  intro a b
  unfold xtime
  rw [BitVec.msb_xor]
  have hs : (a ^^^ b) <<< 1 = a <<< 1 ^^^ b <<< 1 := by
    apply BitVec.eq_of_getLsbD_eq; intro i hi
    simp only [BitVec.getLsbD_shiftLeft, BitVec.getLsbD_xor]
    cases decide (i < 1) <;> cases decide (i < 8) <;> simp
  rw [hs]
  cases a.msb <;> cases b.msb
  · simp
  · simp [BitVec.xor_assoc]
  · simp only [Bool.true_xor, Bool.not_false, if_true, Bool.false_eq_true, if_false]; ac_rfl
  · simp only [Bool.true_xor, Bool.not_true, if_true, Bool.false_eq_true, if_false]
    rw [show (0 : Byte) = 27 ^^^ 27 from rfl]
    ac_rfl

theorem invMixCol_xor (x y : Col) : invMixCol (x.xor y) = (invMixCol x).xor (invMixCol y) := by
  simp only [invMixCol, Col.xor, gmul9, gmulb, gmuld, gmule, xtime_xor, Col.mk.injEq]
  refine ⟨?_, ?_, ?_, ?_⟩ <;> ac_rfl

theorem mixCol_xor (x y : Col) : mixCol (x.xor y) = (mixCol x).xor (mixCol y) := by
  simp only [mixCol, Col.xor, gmul2, gmul3, xtime_xor, Col.mk.injEq]
  refine ⟨?_, ?_, ?_, ?_⟩ <;> ac_rfl

end Verif.Aes
