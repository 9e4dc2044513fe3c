import Verif.Lemmas.Hash.Md
import Verif.Model.Hash.Md5
/-! MD5. -/
namespace Verif.Hash.Md5
open Verif.HashS Verif.HashL
open Verif.Modes (Blocks encodeBE)

theorem lines_eq : ∀ t, t < 64 → md5Lines.getD t (0, 0, 0) = (md5G t, md5S t, md5T.getD t 0) ∧ md5S t < 32 ∧
    md5G t < 16 := by
  decide +kernel

theorem rol_eq (x : BitVec 32) {n : Nat} (h : n < 32) : rol x n = x.rotateLeft n := by
  rw [rol, BitVec.rotateLeft_def, Nat.mod_eq_of_lt h]

theorem line_spec {M : Nat → BitVec 32} {inp : List (BitVec 32)} (hM : ∀ i, i < 16 → inp.getD i 0 = M i) {t : Nat}
    (ht : t < 64) {f : BitVec 32 → BitVec 32 → BitVec 32 → BitVec 32} (hf : f = md5F t) (a b c d : BitVec 32) :
    md5Step M ⟨a, b, c, d⟩ t = ⟨d, line f inp t a b c d, b, c⟩ := by
  obtain ⟨h1, h2, h3⟩ := lines_eq t ht
  unfold line md5Step
  dsimp only
  rw [h1, hf]
  dsimp only
  rw [hM _ h3, rol_eq _ h2]
  congr 1
  rw [BitVec.add_comm, ← BitVec.add_assoc, ← BitVec.add_assoc]

theorem four_spec {M : Nat → BitVec 32} {inp : List (BitVec 32)} (hM : ∀ i, i < 16 → inp.getD i 0 = M i) {t : Nat}
    (ht : t + 3 < 64) {f : BitVec 32 → BitVec 32 → BitVec 32 → BitVec 32} (hf : ∀ i, i < 4 → f = md5F (t + i)) (r : Regs4) :
    four f inp t r = (List.range' t 4).foldl (md5Step M) r := by
  obtain ⟨a, b, c, d⟩ := r
  have s0 := line_spec (t := t) hM (by omega) (hf 0 (by omega))
  have s1 := line_spec hM (by omega) (hf 1 (by omega))
  have s2 := line_spec hM (by omega) (hf 2 (by omega))
  have s3 := line_spec hM (by omega) (hf 3 (by omega))
  simp only [List.range'_succ, List.range'_zero, List.foldl_cons, List.foldl_nil, Nat.add_assoc, Nat.reduceAdd]
  rw [s0, s1, s2, s3]
  rfl

theorem sixteen_spec {M : Nat → BitVec 32} {inp : List (BitVec 32)} (hM : ∀ i, i < 16 → inp.getD i 0 = M i) {t : Nat}
    (ht : t + 15 < 64) {f : BitVec 32 → BitVec 32 → BitVec 32 → BitVec 32} (hf : ∀ i, i < 16 → f = md5F (t + i))
    (r : Regs4) : sixteen f inp t r = (List.range' t 16).foldl (md5Step M) r := by
  have hr : List.range' t 16 = List.range' t 4 ++ List.range' (t + 4) 4 ++ List.range' (t + 8) 4 ++
      List.range' (t + 12) 4 := by
    simp [List.range'_succ]
  rw [hr, List.foldl_append, List.foldl_append, List.foldl_append, sixteen,
    four_spec hM (t := t) (by omega) (fun i hi => hf i (by omega)),
    four_spec hM (by omega) (fun i hi => by rw [Nat.add_assoc]; exact hf (12 + i) (by omega)),
    four_spec hM (by omega) (fun i hi => by rw [Nat.add_assoc]; exact hf (8 + i) (by omega)),
    four_spec hM (by omega) (fun i hi => by rw [Nat.add_assoc]; exact hf (4 + i) (by omega))]

theorem process_spec {M : Nat → BitVec 32} {inp : List (BitVec 32)} (hM : ∀ i, i < 16 → inp.getD i 0 = M i)
    (st : Regs4) : process st inp = md5Compress st M := by
  have hr : List.range 64 = List.range' 0 16 ++ List.range' 16 16 ++ List.range' 32 16 ++ List.range' 48 16 := by
    decide
  unfold process md5Compress
  dsimp only
  rw [hr, List.foldl_append, List.foldl_append, List.foldl_append,
    sixteen_spec hM (t := 0) (by omega) (fun i hi => by funext x y z; rw [md5F, if_pos (by omega)]; rfl),
    sixteen_spec hM (t := 16) (by omega) (fun i hi => by
      funext x y z; rw [md5F, if_neg (by omega), if_pos (by omega)]; rfl),
    sixteen_spec hM (t := 32) (by omega) (fun i hi => by
      funext x y z; rw [md5F, if_neg (by omega), if_neg (by omega), if_pos (by omega)]; rfl),
    sixteen_spec hM (t := 48) (by omega) (fun i hi => by
      funext x y z; rw [md5F, if_neg (by omega), if_neg (by omega), if_neg (by omega)]; rfl)]
  simp only [BitVec.add_comm]

theorem wordLE_eq {l : List Byte} {t : Nat} (h : 4 * t + 4 ≤ l.length) : wordLE l t = word l t := by
  rw [wordLE, four_of_length h, word, read32le_eq]
  simp only [List.reverse_cons, List.reverse_nil, List.nil_append, List.cons_append, beVal_four]
  apply BitVec.eq_of_toNat_eq
  rw [BitVec.toNat_ofNat]
  exact Nat.mod_eq_of_lt (BitVec.isLt _)

/-- One block. -/
def proc (st : Regs4) (b : List Byte) : Regs4 := process st ((List.range 16).map (word b))

theorem proc_spec (st : Regs4) {b : List Byte} (hb : b.length = 64) : proc st b = md5Compress st (wordLE b) := by
  rw [proc]
  apply process_spec
  intro i hi
  rw [wordLE_eq (by omega), List.getD_eq_getElem?_getD, List.getElem?_map, List.getElem?_range hi]
  rfl

theorem take_set_succ {l : List Byte} {n : Nat} (h : n < l.length) (x : Byte) :
    (l.set n x).take (n + 1) = l.take n ++ [x] := by
  rw [List.take_add_one, List.take_set_of_le (Nat.le_refl _), List.getElem?_set_self h]
  rfl

theorem feed_spec {iv : Regs4} : ∀ (d : List Byte) (mdi : Nat) (data : List Byte) (st : Regs4) (m : List Byte),
    mdi = m.length % 64 → data.length = 64 → Md 64 proc iv m st (data.take mdi) →
    Md 64 proc iv (m ++ d) (feed mdi data st d).2 ((feed mdi data st d).1.take ((m ++ d).length % 64)) ∧
      (feed mdi data st d).1.length = 64
  | [], mdi, data, st, m, hm, hl, h => by
    rw [List.append_nil, ← hm]; exact ⟨h, hl⟩
  | x :: d, mdi, data, st, m, hm, hl, h => by
    have hlt : mdi < 64 := by omega
    have ht : (data.take mdi).length = mdi := by rw [List.length_take]; omega
    have hset := take_set_succ (l := data) (n := mdi) (by omega) x
    rw [feed, show m ++ x :: d = (m ++ [x]) ++ d by simp]
    by_cases h64 : mdi + 1 = 0x40
    · rw [if_pos h64]
      refine feed_spec d _ _ _ _ ?_ (by simp [hl]) ?_
      · rw [List.length_append, List.length_singleton]; omega
      · have := h.full (d := [x]) (by rw [ht]; exact h64)
        rw [← hset, h64, List.take_of_length_le (by simp [hl])] at this
        exact this
    · rw [if_neg h64]
      refine feed_spec d _ _ _ _ ?_ (by simp [hl]) ?_
      · rw [List.length_append, List.length_singleton]; omega
      · have := h.short (d := [x]) (by rw [ht]; simp; omega)
        rw [← hset] at this
        exact this

/-- The context has consumed `m`. -/
structure Rep (c : Ctx) (m : List Byte) : Prop where
  md : Md 64 proc init.state m c.state (c.data.take (m.length % 64))
  len : c.data.length = 64
  count : c.len1.toNat * 4294967296 + c.len0.toNat = 8 * m.length % 18446744073709551616

theorem init_rep : Rep init [] := ⟨Md.nil (by omega), by simp [init], by simp [init]⟩

theorem Rep.mdi {c : Ctx} {m : List Byte} (h : Rep c m) : ((c.len0 >>> 3) &&& 0x3F#32).toNat = m.length % 64 := by
  have h1 := h.count
  have h2 := c.len0.isLt
  rw [BitVec.toNat_and, BitVec.toNat_ushiftRight, Nat.shiftRight_eq_div_pow, show (0x3F#32).toNat = 2 ^ 6 - 1 from rfl,
    Nat.and_two_pow_sub_one_eq_mod]
  omega

theorem count_step {x0 x1 : BitVec 32} {n l : Nat} (hl : l < 2 ^ 32)
    (h : x1.toNat * 4294967296 + x0.toNat = 8 * n % 18446744073709551616) :
    ((if x0 + (BitVec.ofNat 32 l <<< 3) < x0 then x1 + 1 else x1) + (BitVec.ofNat 32 l >>> 29)).toNat * 4294967296 +
      (x0 + (BitVec.ofNat 32 l <<< 3)).toNat = 8 * (n + l) % 18446744073709551616 := by
  have h0 := x0.isLt
  have h1 := x1.isLt
  have hs : (BitVec.ofNat 32 l <<< 3).toNat = 8 * l % 4294967296 := by
    rw [BitVec.toNat_shiftLeft, BitVec.toNat_ofNat, Nat.shiftLeft_eq]; omega
  have hr : (BitVec.ofNat 32 l >>> 29).toNat = l / 536870912 := by
    rw [BitVec.toNat_ushiftRight, BitVec.toNat_ofNat, Nat.shiftRight_eq_div_pow]; omega
  have ha : (x0 + (BitVec.ofNat 32 l <<< 3)).toNat = (x0.toNat + 8 * l % 4294967296) % 4294967296 := by
    rw [BitVec.toNat_add, hs]
  have hone : (x1 + 1).toNat = (x1.toNat + 1) % 4294967296 := by
    rw [BitVec.toNat_add]; rfl
  rw [BitVec.toNat_add, hr, ha]
  simp only [BitVec.lt_def, ha]
  rw [show 2 ^ 32 = 4294967296 from rfl] at *
  have hq : 8 * l = (l / 536870912) * 4294967296 + 8 * l % 4294967296 := by
    have := Nat.div_add_mod (8 * l) 4294967296
    have e : 8 * l / 4294967296 = l / 536870912 := by
      rw [show 4294967296 = 8 * 536870912 from rfl, Nat.mul_div_mul_left _ _ (by omega)]
    rw [e] at this
    omega
  have hgoal : 8 * (n + l) % 18446744073709551616 = (x1.toNat * 4294967296 + x0.toNat +
      ((l / 536870912) * 4294967296 + 8 * l % 4294967296)) % 18446744073709551616 := by
    rw [← hq, h, Nat.mod_add_mod, Nat.mul_add]
  have hr3 := Nat.mod_lt (8 * l) (show 0 < 4294967296 by omega)
  rw [hgoal]
  clear hs hr ha hgoal hq h hl
  generalize 8 * l % 4294967296 = r at *
  generalize l / 536870912 = q at *
  split_ifs with hc
  · rw [hone]
    clear hone
    generalize x0.toNat = a at *
    generalize x1.toNat = b at *
    clear x0 x1
    omega
  · clear hone
    generalize x0.toNat = a at *
    generalize x1.toNat = b at *
    clear x0 x1
    omega

theorem update_rep {c : Ctx} {m d : List Byte} (hd : d.length < 2 ^ 32) (h : Rep c m) : Rep (update c d) (m ++ d) := by
  have hf := feed_spec d (m.length % 64) c.data c.state m rfl h.len h.md
  unfold update
  dsimp only
  rw [h.mdi]
  refine ⟨hf.1, hf.2, ?_⟩
  rw [List.length_append]
  exact count_step hd h.count

theorem digest_spec {c : Ctx} {m : List Byte} (h : Rep c m) : digest c = HashS.md5 m := by
  have hlt := Nat.mod_lt m.length (show 0 < 64 by omega)
  unfold digest
  dsimp only
  rw [h.mdi]
  generalize hpl : (if m.length % 64 < 56 then 56 - m.length % 64 else 120 - m.length % 64) = padlen
  have hpad : (0x80#8 :: List.replicate 63 0).take padlen = [0x80#8] ++ List.replicate (padlen - 1) 0 := by
    have : 0 < padlen ∧ padlen ≤ 64 := by split_ifs at hpl <;> omega
    obtain ⟨q, rfl⟩ : ∃ q, padlen = q + 1 := ⟨padlen - 1, by omega⟩
    rw [List.take_succ_cons, List.take_replicate, Nat.min_eq_left (by omega)]
    rfl
  have hplen : ((0x80#8 :: List.replicate 63 0).take padlen).length = padlen := by
    rw [hpad]; simp; split_ifs at hpl <;> omega
  have hz : padlen - 1 = (64 - (m.length + 1 + 8) % 64) % 64 := by split_ifs at hpl <;> omega
  have h1 := update_rep (d := (0x80#8 :: List.replicate 63 0).take padlen) (by rw [hplen]; split_ifs at hpl <;> omega) h
  have hml : (m ++ (0x80#8 :: List.replicate 63 0).take padlen).length % 64 = 56 := by
    rw [List.length_append, hplen]; split_ifs at hpl <;> omega
  have hmsg : write32le c.len0 ++ write32le c.len1 = (encodeBE 8 (8 * m.length)).reverse := by
    rw [write32le_eq, write32le_eq, ← List.reverse_append, write32be_pair, h.count, encodeBE_mod8]
  have hpm : mdPad 64 8 (encodeBE 8 (8 * m.length)).reverse m =
      (m ++ (0x80#8 :: List.replicate 63 0).take padlen) ++ (write32le c.len0 ++ write32le c.len1) := by
    rw [mdPad, hmsg, hpad, hz]
    simp only [List.append_assoc]
    rfl
  have hmd := h1.md
  have hdl := h1.len
  rw [hml] at hmd
  generalize update c ((0x80#8 :: List.replicate 63 0).take padlen) = c' at hmd hdl ⊢
  have htl : (c'.data.take 56).length = 56 := by rw [List.length_take]; omega
  have hwl : (write32le c.len0 ++ write32le c.len1).length = 8 := rfl
  have hfull := hmd.full (d := write32le c.len0 ++ write32le c.len1) (by rw [htl, hwl])
  rw [← hpm] at hfull
  have hst := hfull.done
  rw [mdFold_congr (by omega) (fun s b hb => proc_spec s hb), proc_spec _ (by rw [List.length_append, htl, hwl])] at hst
  have hp : process c'.state ((List.range 14).map (word c'.data) ++ [c.len0, c.len1]) =
      md5Compress c'.state (wordLE (c'.data.take 56 ++ (write32le c.len0 ++ write32le c.len1))) := by
    apply process_spec
    intro i hi
    rw [wordLE_eq (by rw [List.length_append, htl, hwl]; omega)]
    by_cases h14 : i < 14
    · rw [List.getD_eq_getElem?_getD, List.getElem?_append_left (by simp; omega), List.getElem?_map,
        List.getElem?_range h14]
      show word c'.data i = _
      unfold word
      simp only [List.getD_eq_getElem?_getD]
      rw [List.getElem?_append_left (by omega), List.getElem?_append_left (by omega),
        List.getElem?_append_left (by omega), List.getElem?_append_left (by omega), List.getElem?_take_of_lt (by omega),
        List.getElem?_take_of_lt (by omega), List.getElem?_take_of_lt (by omega), List.getElem?_take_of_lt (by omega)]
    · obtain ⟨x0, x1, x2, x3, hx, hrx⟩ := exists_write32be c.len0
      obtain ⟨y0, y1, y2, y3, hy, hry⟩ := exists_write32be c.len1
      have hcat : write32le c.len0 ++ write32le c.len1 = [x3, x2, x1, x0, y3, y2, y1, y0] := by
        rw [write32le_eq, write32le_eq, hx, hy]; rfl
      rw [hcat]
      unfold word
      simp only [List.getD_eq_getElem?_getD]
      rw [List.getElem?_append_right (by simp; omega), List.getElem?_append_right (by omega),
        List.getElem?_append_right (by omega), List.getElem?_append_right (by omega),
        List.getElem?_append_right (by omega), htl]
      have : i = 14 ∨ i = 15 := by omega
      rcases this with rfl | rfl
      · simp [read32le_eq, hrx]
      · simp [read32le_eq, hry]
  rw [hp, ← hst]
  unfold HashS.md5
  rw [show init.state = ⟨0x67452301#32, 0xefcdab89#32, 0x98badcfe#32, 0x10325476#32⟩ from rfl]
  generalize mdFold 64 _ _ _ = st
  simp only [List.map_cons, List.map_nil, List.flatten_cons, List.flatten_nil, write32le_eq, write32be_encode,
    List.append_nil, List.append_assoc]

end Verif.Hash.Md5
