import Verif.Props.Modes.Gcm
import Mathlib.FieldTheory.Finite.Extension
/-! The polynomial of GCM is irreducible, by the test of Rabin: it divides `X ^ 2 ^ 128 - X` and has no divisor in common with `X ^ 2 ^ 64 - X`.  The powers are
computed with the multiplication of the model. -/
namespace Verif.Gf
open Polynomial Verif.Modes

/-- The blocks of `X ^ 2 ^ i`. -/
def frob : List (List Byte) := [
  [64, 0, 0, 0, 0, 0, 0, 0, 0, 0, 0, 0, 0, 0, 0, 0],
  [32, 0, 0, 0, 0, 0, 0, 0, 0, 0, 0, 0, 0, 0, 0, 0],
  [8, 0, 0, 0, 0, 0, 0, 0, 0, 0, 0, 0, 0, 0, 0, 0],
  [0, 128, 0, 0, 0, 0, 0, 0, 0, 0, 0, 0, 0, 0, 0, 0],
  [0, 0, 128, 0, 0, 0, 0, 0, 0, 0, 0, 0, 0, 0, 0, 0],
  [0, 0, 0, 0, 128, 0, 0, 0, 0, 0, 0, 0, 0, 0, 0, 0],
  [0, 0, 0, 0, 0, 0, 0, 0, 128, 0, 0, 0, 0, 0, 0, 0],
  [225, 0, 0, 0, 0, 0, 0, 0, 0, 0, 0, 0, 0, 0, 0, 0],
  [168, 2, 0, 0, 0, 0, 0, 0, 0, 0, 0, 0, 0, 0, 0, 0],
  [136, 128, 0, 8, 0, 0, 0, 0, 0, 0, 0, 0, 0, 0, 0, 0],
  [128, 128, 128, 0, 0, 0, 0, 128, 0, 0, 0, 0, 0, 0, 0, 0],
  [128, 0, 128, 0, 128, 0, 0, 0, 0, 0, 0, 0, 0, 0, 128, 0],
  [128, 0, 0, 0, 128, 0, 0, 0, 128, 0, 0, 0, 225, 0, 0, 0],
  [97, 0, 0, 0, 0, 0, 0, 0, 87, 83, 132, 0, 0, 0, 0, 0],
  [19, 243, 239, 201, 117, 56, 64, 0, 0, 0, 0, 0, 0, 0, 0, 0],
  [2, 10, 170, 10, 168, 170, 160, 130, 42, 34, 10, 128, 32, 0, 0, 0],
  [14, 247, 30, 150, 152, 103, 241, 136, 134, 144, 136, 136, 136, 0, 128, 8],
  [225, 158, 24, 174, 227, 73, 99, 201, 99, 97, 40, 42, 75, 2, 128, 97],
  [120, 87, 32, 251, 136, 113, 134, 87, 128, 166, 180, 140, 217, 10, 150, 209],
  [45, 136, 205, 12, 180, 172, 11, 83, 26, 166, 174, 237, 114, 154, 168, 237],
  [157, 65, 127, 166, 31, 101, 135, 42, 123, 250, 122, 203, 255, 123, 245, 128],
  [183, 154, 96, 57, 15, 145, 65, 132, 66, 170, 201, 26, 192, 197, 45, 136],
  [178, 100, 125, 119, 225, 162, 141, 233, 201, 234, 91, 121, 234, 200, 165, 193],
  [181, 162, 123, 159, 1, 138, 139, 28, 251, 189, 65, 169, 111, 137, 181, 193],
  [184, 18, 240, 70, 214, 201, 233, 88, 178, 134, 181, 106, 232, 37, 31, 227],
  [156, 50, 243, 62, 22, 175, 210, 151, 101, 153, 174, 169, 111, 210, 33, 221],
  [34, 67, 44, 110, 193, 205, 181, 90, 176, 172, 134, 96, 188, 27, 220, 52],
  [148, 28, 207, 195, 169, 150, 78, 248, 76, 79, 227, 202, 196, 63, 111, 36],
  [202, 57, 122, 52, 163, 247, 237, 165, 65, 250, 207, 104, 194, 44, 112, 168],
  [152, 203, 90, 185, 227, 28, 232, 145, 81, 68, 180, 227, 221, 118, 103, 211],
  [67, 111, 28, 242, 142, 36, 29, 223, 230, 20, 243, 66, 206, 229, 140, 203],
  [13, 68, 123, 22, 150, 121, 6, 70, 73, 63, 143, 75, 39, 123, 59, 6],
  [84, 160, 169, 96, 31, 94, 238, 132, 24, 13, 203, 186, 153, 80, 180, 30],
  [77, 229, 136, 218, 149, 46, 80, 123, 240, 204, 157, 108, 68, 4, 195, 115],
  [14, 94, 113, 187, 34, 222, 80, 1, 250, 90, 72, 144, 187, 77, 139, 83],
  [46, 187, 9, 131, 2, 163, 104, 14, 228, 112, 14, 50, 7, 236, 175, 203],
  [37, 232, 255, 94, 0, 85, 221, 144, 16, 61, 139, 131, 135, 68, 13, 4],
  [123, 38, 165, 206, 143, 70, 87, 165, 117, 53, 206, 90, 226, 120, 70, 56],
  [31, 101, 193, 135, 149, 181, 203, 131, 71, 244, 5, 29, 26, 92, 213, 87],
  [176, 119, 40, 206, 224, 57, 71, 116, 69, 73, 161, 63, 58, 117, 127, 251],
  [72, 83, 214, 136, 99, 147, 41, 232, 113, 123, 47, 109, 209, 42, 42, 24],
  [21, 87, 147, 50, 56, 236, 98, 10, 54, 205, 8, 245, 22, 125, 187, 229],
  [153, 8, 171, 176, 70, 235, 222, 231, 205, 50, 205, 174, 0, 112, 67, 227],
  [161, 48, 201, 26, 65, 16, 161, 199, 112, 40, 157, 94, 154, 229, 235, 119],
  [55, 126, 4, 241, 66, 220, 253, 155, 146, 105, 197, 107, 155, 190, 1, 203],
  [18, 136, 12, 26, 93, 91, 88, 190, 86, 96, 218, 227, 250, 161, 223, 38],
  [85, 90, 230, 208, 218, 139, 197, 213, 98, 153, 221, 153, 124, 144, 80, 142],
  [120, 220, 208, 238, 246, 54, 132, 102, 19, 133, 34, 14, 155, 230, 67, 245],
  [191, 129, 215, 155, 104, 30, 184, 127, 24, 64, 73, 78, 232, 109, 104, 199],
  [3, 103, 184, 66, 154, 136, 62, 29, 175, 49, 52, 34, 120, 49, 243, 223],
  [101, 102, 241, 189, 3, 44, 110, 22, 167, 189, 141, 23, 90, 113, 76, 178],
  [219, 39, 16, 102, 143, 216, 77, 19, 239, 33, 45, 119, 148, 49, 174, 178],
  [105, 46, 210, 57, 136, 202, 217, 201, 182, 22, 239, 23, 75, 101, 190, 144],
  [196, 32, 91, 26, 37, 140, 221, 51, 108, 44, 2, 227, 138, 193, 18, 6],
  [250, 9, 70, 201, 98, 132, 197, 213, 125, 205, 73, 227, 37, 40, 26, 60],
  [239, 6, 29, 24, 220, 138, 243, 223, 178, 35, 74, 209, 163, 73, 191, 111],
  [206, 152, 30, 53, 174, 13, 200, 71, 201, 189, 44, 42, 194, 74, 64, 46],
  [21, 170, 234, 206, 200, 97, 68, 221, 65, 230, 40, 13, 136, 192, 46, 237],
  [172, 233, 219, 238, 246, 121, 160, 114, 133, 97, 241, 66, 46, 231, 37, 40],
  [105, 155, 90, 209, 242, 93, 20, 230, 180, 239, 173, 231, 82, 43, 224, 249],
  [34, 38, 21, 14, 25, 66, 177, 103, 69, 194, 60, 94, 65, 112, 124, 30],
  [92, 211, 21, 102, 31, 111, 123, 187, 106, 193, 145, 220, 191, 15, 107, 121],
  [242, 23, 107, 73, 100, 165, 118, 53, 174, 234, 252, 126, 200, 54, 43, 188],
  [53, 79, 133, 149, 236, 135, 85, 129, 161, 129, 133, 128, 116, 212, 114, 111],
  [111, 153, 69, 169, 229, 25, 167, 34, 157, 76, 26, 214, 87, 248, 166, 134],
  [166, 84, 126, 27, 99, 73, 66, 112, 195, 211, 2, 183, 103, 12, 185, 62],
  [61, 197, 108, 233, 190, 166, 254, 43, 202, 111, 244, 91, 140, 126, 163, 67],
  [41, 37, 134, 166, 40, 76, 211, 170, 255, 113, 253, 43, 21, 181, 164, 199],
  [86, 42, 233, 245, 208, 38, 66, 212, 159, 63, 8, 15, 137, 34, 17, 253],
  [86, 240, 209, 200, 124, 99, 170, 246, 151, 226, 130, 54, 51, 143, 242, 46],
  [172, 57, 169, 94, 83, 12, 189, 34, 119, 57, 93, 222, 136, 82, 180, 239],
  [55, 233, 211, 244, 55, 156, 60, 187, 147, 235, 59, 106, 118, 14, 159, 140],
  [152, 35, 235, 62, 59, 114, 8, 159, 47, 200, 210, 119, 184, 240, 191, 83],
  [118, 108, 5, 171, 114, 64, 47, 73, 50, 255, 254, 220, 236, 192, 109, 99],
  [221, 154, 236, 160, 0, 33, 2, 151, 189, 129, 185, 64, 62, 32, 210, 223],
  [196, 68, 167, 139, 192, 214, 52, 64, 13, 67, 86, 18, 218, 194, 72, 58],
  [188, 218, 220, 109, 39, 216, 211, 0, 106, 43, 107, 102, 34, 129, 45, 123],
  [70, 55, 188, 116, 0, 28, 138, 196, 86, 52, 83, 131, 40, 192, 241, 56],
  [27, 218, 87, 134, 241, 105, 95, 45, 154, 241, 219, 224, 84, 95, 41, 85],
  [118, 105, 102, 95, 124, 2, 195, 120, 145, 254, 83, 146, 248, 88, 183, 93],
  [94, 39, 120, 129, 67, 225, 84, 32, 238, 149, 59, 45, 76, 171, 197, 158],
  [153, 143, 186, 149, 227, 248, 26, 200, 220, 147, 7, 254, 111, 91, 46, 83],
  [162, 183, 34, 35, 30, 189, 130, 33, 206, 142, 69, 168, 152, 79, 203, 73],
  [183, 151, 59, 253, 96, 115, 35, 251, 224, 205, 178, 54, 141, 164, 164, 160],
  [93, 122, 91, 176, 34, 16, 183, 0, 153, 218, 1, 34, 167, 34, 5, 154],
  [220, 228, 116, 163, 50, 137, 0, 30, 247, 45, 216, 30, 154, 17, 38, 107],
  [140, 105, 114, 234, 52, 5, 139, 89, 184, 99, 147, 5, 138, 38, 100, 20],
  [28, 85, 30, 223, 92, 129, 60, 179, 47, 207, 30, 4, 230, 226, 97, 62],
  [96, 196, 47, 182, 213, 251, 242, 146, 181, 198, 7, 92, 44, 243, 3, 73],
  [34, 167, 189, 86, 88, 159, 101, 53, 236, 235, 62, 83, 62, 5, 46, 170],
  [195, 161, 31, 150, 19, 225, 73, 225, 187, 195, 210, 145, 226, 229, 181, 221],
  [218, 250, 197, 79, 76, 96, 112, 175, 81, 84, 111, 105, 8, 45, 182, 28],
  [233, 207, 21, 116, 214, 166, 194, 24, 164, 65, 38, 202, 2, 162, 219, 247],
  [205, 2, 216, 233, 136, 4, 163, 143, 178, 38, 119, 54, 106, 32, 66, 97],
  [170, 48, 30, 46, 199, 97, 113, 32, 230, 63, 30, 48, 176, 68, 166, 249],
  [185, 230, 87, 64, 213, 251, 85, 60, 76, 190, 16, 122, 133, 36, 140, 54],
  [222, 187, 4, 107, 113, 174, 21, 59, 83, 25, 96, 162, 131, 251, 71, 2],
  [133, 65, 29, 236, 178, 112, 199, 148, 219, 15, 200, 144, 174, 87, 222, 132],
  [42, 138, 180, 214, 15, 3, 74, 36, 101, 207, 65, 241, 174, 57, 51, 24],
  [62, 227, 157, 28, 102, 99, 242, 255, 107, 109, 93, 124, 169, 17, 159, 69],
  [170, 156, 10, 128, 125, 188, 243, 173, 135, 218, 175, 141, 204, 88, 70, 209],
  [143, 181, 140, 139, 255, 76, 181, 218, 55, 59, 241, 133, 146, 124, 2, 101],
  [27, 131, 83, 90, 192, 119, 229, 177, 140, 32, 5, 173, 202, 44, 132, 227],
  [25, 123, 206, 26, 34, 49, 9, 66, 189, 175, 52, 227, 9, 26, 29, 95],
  [100, 100, 1, 78, 121, 4, 149, 213, 156, 234, 141, 105, 19, 220, 223, 24],
  [202, 125, 191, 159, 241, 216, 210, 26, 173, 11, 78, 61, 24, 50, 117, 71],
  [197, 234, 238, 78, 38, 61, 223, 228, 109, 103, 175, 26, 135, 231, 254, 253],
  [0, 32, 90, 237, 147, 108, 247, 195, 249, 29, 9, 199, 162, 169, 44, 46],
  [184, 150, 143, 94, 230, 106, 245, 215, 185, 20, 215, 82, 32, 227, 238, 205],
  [240, 126, 5, 148, 26, 91, 205, 98, 182, 56, 255, 213, 233, 165, 43, 176],
  [70, 162, 119, 221, 212, 34, 140, 223, 17, 58, 73, 161, 106, 94, 80, 156],
  [83, 47, 1, 115, 2, 136, 201, 177, 16, 159, 35, 27, 235, 100, 64, 247],
  [171, 38, 234, 250, 218, 31, 189, 98, 67, 180, 34, 232, 216, 194, 94, 227],
  [74, 239, 112, 132, 230, 150, 109, 57, 120, 173, 219, 228, 161, 177, 175, 85],
  [131, 53, 71, 96, 52, 40, 195, 72, 7, 59, 234, 191, 67, 102, 229, 125],
  [22, 183, 211, 90, 99, 149, 212, 64, 230, 109, 170, 230, 39, 97, 209, 142],
  [185, 238, 236, 160, 137, 245, 229, 238, 118, 47, 96, 113, 252, 231, 69, 215],
  [53, 200, 246, 108, 74, 240, 189, 215, 208, 143, 61, 71, 68, 89, 182, 89],
  [54, 238, 65, 84, 115, 102, 212, 213, 204, 240, 209, 38, 226, 0, 201, 12],
  [163, 49, 60, 124, 250, 197, 168, 6, 173, 84, 56, 40, 123, 130, 38, 251],
  [157, 232, 245, 254, 71, 213, 36, 81, 159, 176, 213, 44, 150, 166, 132, 16],
  [96, 242, 144, 20, 112, 221, 96, 97, 130, 152, 29, 4, 185, 24, 97, 134],
  [165, 174, 88, 109, 129, 94, 198, 24, 134, 118, 37, 199, 30, 83, 77, 52],
  [25, 148, 237, 74, 124, 171, 53, 215, 87, 81, 73, 97, 12, 178, 203, 44],
  [73, 243, 109, 231, 20, 0, 146, 219, 174, 121, 36, 16, 195, 142, 56, 227],
  [53, 109, 207, 60, 162, 138, 235, 174, 219, 109, 117, 215, 223, 125, 117, 215],
  [90, 162, 138, 40, 81, 69, 20, 81, 134, 24, 97, 134, 89, 101, 150, 89],
  [37, 182, 219, 109, 182, 219, 109, 182, 73, 36, 146, 73, 36, 146, 73, 36],
  [64, 0, 0, 0, 0, 0, 0, 0, 0, 0, 0, 0, 0, 0, 0, 0]]

/-- Each block is the square of the one before. -/
def sqs : List (List Byte) → Bool
  | a :: b :: l => (gfMul a a == b) && sqs (b :: l)
  | _ => true

theorem frob_sqs : sqs frob = true := by decide +kernel

theorem frob_length : ∀ b ∈ frob, b.length = 16 := by decide +kernel

theorem sqs_pow : ∀ (l : List (List Byte)) (a : List Byte), (∀ b ∈ a :: l, b.length = 16) → sqs (a :: l) = true →
    ∀ i b, (a :: l)[i]? = some b → q (gpoly b) = q (gpoly a) ^ 2 ^ i
  | l, a, _, _, 0, b, h => by
    rw [List.getElem?_cons_zero, Option.some.injEq] at h
    rw [h, pow_zero, pow_one]
  | [], a, _, _, i + 1, b, h => by simp at h
  | c :: l, a, hl, hs, i + 1, b, h => by
    rw [sqs, Bool.and_eq_true, beq_iff_eq] at hs
    rw [List.getElem?_cons_succ] at h
    rw [sqs_pow l c (fun b hb => hl b (List.mem_cons_of_mem _ hb)) hs.2 i b h, ← hs.1, q_gfMul (hl a List.mem_cons_self), ← pow_two, ← pow_mul,
      ← pow_succ']

theorem gpoly_X : gpoly [64, 0, 0, 0, 0, 0, 0, 0, 0, 0, 0, 0, 0, 0, 0, 0] = X := by
  have h64 : bpoly (64 : Byte) = X := by
    unfold bpoly
    simp [Finset.sum_range_succ, BitVec.getMsbD_eq_getLsbD]
  have h0 : bpoly (0 : Byte) = 0 := bpoly_zero 8
  simp only [gpoly, h64, h0, mul_zero, add_zero]

theorem gpoly_one : gpoly [128, 0, 0, 0, 0, 0, 0, 0, 0, 0, 0, 0, 0, 0, 0, 0] = 1 := by
  have h64 : bpoly (128 : Byte) = 1 := by
    unfold bpoly
    simp [Finset.sum_range_succ, BitVec.getMsbD_eq_getLsbD]
  have h0 : bpoly (0 : Byte) = 0 := bpoly_zero 8
  simp only [gpoly, h64, h0, mul_zero, add_zero]

theorem frob_pow {i : Nat} {b : List Byte} (h : frob[i]? = some b) : q (gpoly b) = q X ^ 2 ^ i := by
  have := sqs_pow frob.tail [64, 0, 0, 0, 0, 0, 0, 0, 0, 0, 0, 0, 0, 0, 0, 0] frob_length frob_sqs i b h
  rwa [gpoly_X] at this

theorem gcm_dvd_X : gcmMod ∣ X ^ 2 ^ 128 - X := by
  have h := frob_pow (i := 128) (b := [64, 0, 0, 0, 0, 0, 0, 0, 0, 0, 0, 0, 0, 0, 0, 0]) (by decide +kernel)
  rw [gpoly_X] at h
  generalize 2 ^ 128 = n at *
  rw [← AdjoinRoot.mk_eq_zero, map_sub, map_pow]
  exact sub_eq_zero.2 h.symm

theorem gcm_coprime_X : ∃ i, gcmMod ∣ (X ^ 2 ^ 64 - X) * i - 1 := by
  have h := frob_pow (i := 64) (b := [111, 153, 69, 169, 229, 25, 167, 34, 157, 76, 26, 214, 87, 248, 166, 134]) (by decide +kernel)
  have hm : gfMul [111, 153, 69, 169, 229, 25, 167, 34, 157, 76, 26, 214, 87, 248, 166, 134]
      [24, 13, 169, 52, 191, 83, 21, 130, 81, 193, 61, 187, 20, 159, 82, 121] =
      xorB (gfMul [64, 0, 0, 0, 0, 0, 0, 0, 0, 0, 0, 0, 0, 0, 0, 0] [24, 13, 169, 52, 191, 83, 21, 130, 81, 193, 61, 187, 20, 159, 82, 121])
        [128, 0, 0, 0, 0, 0, 0, 0, 0, 0, 0, 0, 0, 0, 0, 0] := by decide +kernel
  refine ⟨gpoly [24, 13, 169, 52, 191, 83, 21, 130, 81, 193, 61, 187, 20, 159, 82, 121], ?_⟩
  have hq := congrArg (fun b => q (gpoly b)) hm
  beta_reduce at hq
  rw [gpoly_xorB _ _ (by rw [gfMul_length rfl]; rfl), map_add, q_gfMul rfl, q_gfMul rfl, h, gpoly_X, gpoly_one, map_one] at hq
  generalize 2 ^ 64 = n at *
  rw [← AdjoinRoot.mk_eq_zero, map_sub, map_mul, map_sub, map_pow, map_one]
  change (q X ^ n - q X) * q _ - 1 = 0
  rw [sub_mul, hq]
  ring

theorem gcm_monic : gcmMod.Monic := by unfold gcmMod; monicity!

theorem gcm_natDegree : gcmMod.natDegree = 128 := by unfold gcmMod; compute_degree!

/-- The test of Rabin for degree 128. -/
theorem rabin {f : (ZMod 2)[X]} (h0 : f ≠ 0) (hf : f.natDegree = 128) {m n r : Nat} (hm : m = 128) (hn : n = 64) (hr : Nat.card (ZMod 2) = r)
    (h1 : f ∣ X ^ r ^ m - X) (h2 : ∃ i, f ∣ (X ^ r ^ n - X) * i - 1) : Irreducible f := by
  subst hr
  have hu : ¬ IsUnit f := fun h => by
    have := natDegree_eq_zero_of_isUnit h
    rw [hf] at this
    omega
  obtain ⟨g, hg, hdv⟩ := WfDvdMonoid.exists_irreducible_factor hu h0
  obtain ⟨c, hc⟩ := id hdv
  have h128 : g.natDegree ∣ m := hg.natDegree_dvd_of_dvd_X_pow_card_pow_sub_X (dvd_trans hdv h1)
  rw [hm] at h128
  obtain ⟨k, hk, hd⟩ := (Nat.dvd_prime_pow (m := 7) Nat.prime_two).1 h128
  rcases Nat.lt_or_ge k 7 with h | h
  · exfalso
    have h64 : g.natDegree ∣ n := by
      rw [hd, hn]
      exact Nat.pow_dvd_pow 2 (show k ≤ 6 by omega)
    rw [hg.natDegree_dvd_iff_dvd_X_pow_card_pow_sub_X] at h64
    obtain ⟨i, hi⟩ := h2
    have h1 := (dvd_sub_right (dvd_mul_of_dvd_left h64 i)).1 (dvd_trans hdv hi)
    exact hg.not_isUnit (isUnit_of_dvd_one h1)
  · have hk7 : k = 7 := by omega
    have hgd : g.natDegree = 128 := by rw [hd, hk7]; rfl
    have hc0 : c ≠ 0 := fun h => h0 (by rw [hc, h, mul_zero])
    have hcd : c.natDegree = 0 := by
      have := congrArg natDegree hc
      rw [natDegree_mul hg.ne_zero hc0, hf, hgd] at this
      omega
    have huc : IsUnit c := by
      rw [eq_C_of_natDegree_eq_zero hcd]
      refine isUnit_C.2 (isUnit_iff_ne_zero.2 fun h => hc0 ?_)
      rw [eq_C_of_natDegree_eq_zero hcd, h, C_0]
    rw [hc]
    exact (irreducible_mul_isUnit huc).2 hg

set_option maxRecDepth 20000 in
theorem gcm_irreducible : Irreducible gcmMod := by
  have h1 := gcm_dvd_X
  have h2 := gcm_coprime_X
  obtain ⟨m, hm⟩ : ∃ m, m = 128 := ⟨_, rfl⟩
  obtain ⟨n, hn⟩ : ∃ n, n = 64 := ⟨_, rfl⟩
  rw [← hm] at h1
  rw [← hn] at h2
  exact rabin gcm_monic.ne_zero gcm_natDegree hm hn (by simp) h1 h2

end Verif.Gf
