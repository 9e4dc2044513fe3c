import Verif.Model.MemXor
import Mathlib.Data.List.Rotate
/-!
# DES and triple DES (FIPS 46-3), on lists of bits, bit 1 first
-/
namespace Verif.DesS

/-- The bits of a byte string, most significant bit of the first byte first. -/
def bits (l : List Byte) : List Bool :=
  (List.range (8 * l.length)).map fun k => (l.getD (k / 8) 0).getLsbD (7 - k % 8)

/-- Bit `j` of the result is bit `tab[j]` of the argument, counting from one. -/
def perm (tab : List Nat) (b : List Bool) : List Bool := tab.map fun i => b.getD (i - 1) false

/-- The initial permutation. -/
def ip : List Nat := [
  58, 50, 42, 34, 26, 18, 10, 2,
  60, 52, 44, 36, 28, 20, 12, 4,
  62, 54, 46, 38, 30, 22, 14, 6,
  64, 56, 48, 40, 32, 24, 16, 8,
  57, 49, 41, 33, 25, 17, 9, 1,
  59, 51, 43, 35, 27, 19, 11, 3,
  61, 53, 45, 37, 29, 21, 13, 5,
  63, 55, 47, 39, 31, 23, 15, 7]

/-- The final permutation is the inverse of the initial one: place `j` gets the bit that `ip` takes from `j`. -/
def ipInv : List Nat := (List.range 64).map fun j => ip.idxOf (j + 1) + 1

/-- The expansion: eight groups of six, each overlapping its neighbours. -/
def expand : List Nat := (List.range 48).map fun j => (4 * (j / 6) + j % 6 + 31) % 32 + 1

def p : List Nat := [
  16, 7, 20, 21, 29, 12, 28, 17, 1, 15, 23, 26, 5, 18, 31, 10,
  2, 8, 24, 14, 32, 27, 3, 9, 19, 13, 30, 6, 22, 11, 4, 25]

/-- The two halves of permuted choice 1: 28 bits each, without the parity bits 8, 16, ..., 64. -/
def pc1C : List Nat := [
  57, 49, 41, 33, 25, 17, 9,
  1, 58, 50, 42, 34, 26, 18,
  10, 2, 59, 51, 43, 35, 27,
  19, 11, 3, 60, 52, 44, 36]
def pc1D : List Nat := [
  63, 55, 47, 39, 31, 23, 15,
  7, 62, 54, 46, 38, 30, 22,
  14, 6, 61, 53, 45, 37, 29,
  21, 13, 5, 28, 20, 12, 4]

def pc2 : List Nat := [
  14, 17, 11, 24, 1, 5,
  3, 28, 15, 6, 21, 10,
  23, 19, 12, 4, 26, 8,
  16, 7, 27, 20, 13, 2,
  41, 52, 31, 37, 47, 55,
  30, 40, 51, 45, 33, 48,
  44, 49, 39, 56, 34, 53,
  46, 42, 50, 36, 29, 32]

/-- The number of left shifts before each round. -/
def shifts : List Nat := [1, 1, 2, 2, 2, 2, 2, 2, 1, 2, 2, 2, 2, 2, 2, 1]

/-- The selection functions: four rows of sixteen. -/
def s : List (List (List Nat)) := [
  [[14, 4, 13, 1, 2, 15, 11, 8, 3, 10, 6, 12, 5, 9, 0, 7],
   [0, 15, 7, 4, 14, 2, 13, 1, 10, 6, 12, 11, 9, 5, 3, 8],
   [4, 1, 14, 8, 13, 6, 2, 11, 15, 12, 9, 7, 3, 10, 5, 0],
   [15, 12, 8, 2, 4, 9, 1, 7, 5, 11, 3, 14, 10, 0, 6, 13]],
  [[15, 1, 8, 14, 6, 11, 3, 4, 9, 7, 2, 13, 12, 0, 5, 10],
   [3, 13, 4, 7, 15, 2, 8, 14, 12, 0, 1, 10, 6, 9, 11, 5],
   [0, 14, 7, 11, 10, 4, 13, 1, 5, 8, 12, 6, 9, 3, 2, 15],
   [13, 8, 10, 1, 3, 15, 4, 2, 11, 6, 7, 12, 0, 5, 14, 9]],
  [[10, 0, 9, 14, 6, 3, 15, 5, 1, 13, 12, 7, 11, 4, 2, 8],
   [13, 7, 0, 9, 3, 4, 6, 10, 2, 8, 5, 14, 12, 11, 15, 1],
   [13, 6, 4, 9, 8, 15, 3, 0, 11, 1, 2, 12, 5, 10, 14, 7],
   [1, 10, 13, 0, 6, 9, 8, 7, 4, 15, 14, 3, 11, 5, 2, 12]],
  [[7, 13, 14, 3, 0, 6, 9, 10, 1, 2, 8, 5, 11, 12, 4, 15],
   [13, 8, 11, 5, 6, 15, 0, 3, 4, 7, 2, 12, 1, 10, 14, 9],
   [10, 6, 9, 0, 12, 11, 7, 13, 15, 1, 3, 14, 5, 2, 8, 4],
   [3, 15, 0, 6, 10, 1, 13, 8, 9, 4, 5, 11, 12, 7, 2, 14]],
  [[2, 12, 4, 1, 7, 10, 11, 6, 8, 5, 3, 15, 13, 0, 14, 9],
   [14, 11, 2, 12, 4, 7, 13, 1, 5, 0, 15, 10, 3, 9, 8, 6],
   [4, 2, 1, 11, 10, 13, 7, 8, 15, 9, 12, 5, 6, 3, 0, 14],
   [11, 8, 12, 7, 1, 14, 2, 13, 6, 15, 0, 9, 10, 4, 5, 3]],
  [[12, 1, 10, 15, 9, 2, 6, 8, 0, 13, 3, 4, 14, 7, 5, 11],
   [10, 15, 4, 2, 7, 12, 9, 5, 6, 1, 13, 14, 0, 11, 3, 8],
   [9, 14, 15, 5, 2, 8, 12, 3, 7, 0, 4, 10, 1, 13, 11, 6],
   [4, 3, 2, 12, 9, 5, 15, 10, 11, 14, 1, 7, 6, 0, 8, 13]],
  [[4, 11, 2, 14, 15, 0, 8, 13, 3, 12, 9, 7, 5, 10, 6, 1],
   [13, 0, 11, 7, 4, 9, 1, 10, 14, 3, 5, 12, 2, 15, 8, 6],
   [1, 4, 11, 13, 12, 3, 7, 14, 10, 15, 6, 8, 0, 5, 9, 2],
   [6, 11, 13, 8, 1, 4, 10, 7, 9, 5, 0, 15, 14, 2, 3, 12]],
  [[13, 2, 8, 4, 6, 15, 11, 1, 10, 9, 3, 14, 5, 0, 12, 7],
   [1, 15, 13, 8, 10, 3, 7, 4, 12, 5, 6, 11, 0, 14, 9, 2],
   [7, 11, 4, 1, 9, 12, 14, 2, 0, 6, 10, 13, 15, 3, 5, 8],
   [2, 1, 14, 7, 4, 10, 8, 13, 15, 12, 9, 0, 3, 5, 6, 11]]]

/-- Row from the outer bits, column from the inner ones. -/
def sel (j : Nat) (b : List Bool) : List Bool :=
  let v := fun i => (b.getD i false).toNat
  let n := ((s.getD j []).getD (2 * v 0 + v 5) []).getD (8 * v 1 + 4 * v 2 + 2 * v 3 + v 4) 0
  [n.testBit 3, n.testBit 2, n.testBit 1, n.testBit 0]

def xor (a b : List Bool) : List Bool := List.zipWith (· ^^ ·) a b

/-- The cipher function. -/
def f (r k : List Bool) : List Bool :=
  let e := xor (perm expand r) k
  perm p ((List.range 8).flatMap fun j => sel j ((e.drop (6 * j)).take 6))

/-- The key of round `n` (from zero): the halves shifted by all the shifts so far. -/
def subkey (key : List Bool) (n : Nat) : List Bool :=
  let t := (shifts.take (n + 1)).sum
  perm pc2 ((perm pc1C key).rotate t ++ (perm pc1D key).rotate t)

/-- A round on the two halves. -/
def round (lr : List Bool × List Bool) (k : List Bool) : List Bool × List Bool := (lr.2, xor lr.1 (f lr.2 k))

/-- Encipher 64 bits with a list of round keys. -/
def cipher (ks : List (List Bool)) (b : List Bool) : List Bool :=
  let x := perm ip b
  let y := ks.foldl round (x.take 32, x.drop 32)
  perm ipInv (y.2 ++ y.1)

def keys (key : List Bool) : List (List Bool) := (List.range 16).map (subkey key)
def enc (key b : List Bool) : List Bool := cipher (keys key) b
def dec (key b : List Bool) : List Bool := cipher (keys key).reverse b

end Verif.DesS
