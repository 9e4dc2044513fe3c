import Verif.Lemmas.Hash.Block
import Verif.Model.Hash.Sha1
/-! SHA-1. -/
namespace Verif.Hash.Sha1
open Verif.HashS Verif.HashL
open Verif.Modes (Blocks encodeBE)

theorem rotl_eq (x : BitVec 32) : rotl x 1 = x.rotateLeft 1 ∧ rotl x 5 = x.rotateLeft 5 ∧
    rotl x 30 = x.rotateLeft 30 := ⟨rfl, rfl, rfl⟩

theorem and15 (t : Nat) : t &&& 0x0F = t % 16 := Nat.and_two_pow_sub_one_eq_mod t 4

/-- The window holds the last sixteen entries of the schedule. -/
def Win (M : Nat → BitVec 32) (t : Nat) (W : List (BitVec 32)) : Prop :=
  W.length = 16 ∧ ∀ i, t ≤ i + 16 → (i < t ∨ i < 16) → W.getD (i % 16) 0 = sched1 M i

theorem arg_spec {M : Nat → BitVec 32} {t : Nat} {W : List (BitVec 32)} (h : Win M t W) :
    (arg W t).2 = sched1 M t ∧ Win M (t + 1) (arg W t).1 := by
  obtain ⟨hl, hw⟩ := h
  rw [arg]
  split_ifs with ht
  · refine ⟨?_, hl, fun i h1 h2 => hw i (by omega) (by omega)⟩
    have := hw t (by omega) (by omega)
    rwa [Nat.mod_eq_of_lt ht] at this
  · have hv : (R W t).2 = sched1 M t := by
      rw [R]
      dsimp only
      rw [and15, and15, and15, and15, hw (t - 3) (by omega) (by omega), hw (t - 8) (by omega) (by omega),
        hw (t - 14) (by omega) (by omega), show t % 16 = (t - 16) % 16 by omega, hw (t - 16) (by omega) (by omega),
        sched1.eq_def M t, if_neg ht]
      exact (rotl_eq _).1
    refine ⟨hv, ?_, ?_⟩
    · show (W.set _ _).length = 16
      rw [List.length_set, hl]
    · intro i h1 h2
      show (W.set (t &&& 0x0F) (R W t).2).getD (i % 16) 0 = _
      rw [and15, hv, List.getD_eq_getElem?_getD, List.getElem?_set]
      by_cases he : i = t
      · subst he
        rw [if_pos rfl, if_pos (by omega)]; rfl
      · rw [if_neg (by omega), ← List.getD_eq_getElem?_getD]
        exact hw i (by omega) (by omega)

theorem step_spec {M : Nat → BitVec 32} {t : Nat} {W : List (BitVec 32)} {F : BitVec 32 → BitVec 32 → BitVec 32 → BitVec 32}
    {K : BitVec 32} (hF : F = f1 t) (hK : K = k1 t) (h : Win M t W) (a b c d e : BitVec 32) :
    round1 M ⟨a, b, c, d, e⟩ t = ⟨(P F K a b c d e (arg W t).2).1, a, (P F K a b c d e (arg W t).2).2, c, d⟩ := by
  rw [(arg_spec h).1, hF, hK, P, round1]
  dsimp only
  rw [(rotl_eq a).2.1, (rotl_eq b).2.2]
  congr 1
  generalize a.rotateLeft 5 = u
  generalize f1 t b c d = v
  generalize k1 t = z
  generalize sched1 M t = s
  ac_rfl

theorem five_spec {M : Nat → BitVec 32} {t : Nat} {W : List (BitVec 32)} {F : BitVec 32 → BitVec 32 → BitVec 32 → BitVec 32}
    {K : BitVec 32} (hF : ∀ i, i < 5 → F = f1 (t + i)) (hK : ∀ i, i < 5 → K = k1 (t + i)) (h : Win M t W) (r : Regs5) :
    (five F K t W r).2 = (List.range' t 5).foldl (round1 M) r ∧ Win M (t + 5) (five F K t W r).1 := by
  obtain ⟨a, b, c, d, e⟩ := r
  have w0 := h
  have w1 := (arg_spec w0).2
  have w2 := (arg_spec w1).2
  have w3 := (arg_spec w2).2
  have w4 := (arg_spec w3).2
  have w5 := (arg_spec w4).2
  refine ⟨?_, w5⟩
  have s0 := step_spec (t := t) (hF 0 (by omega)) (hK 0 (by omega)) w0
  have s1 := step_spec (hF 1 (by omega)) (hK 1 (by omega)) w1
  have s2 := step_spec (hF 2 (by omega)) (hK 2 (by omega)) w2
  have s3 := step_spec (hF 3 (by omega)) (hK 3 (by omega)) w3
  have s4 := step_spec (hF 4 (by omega)) (hK 4 (by omega)) w4
  simp only [List.range'_succ, List.range'_zero, List.foldl_cons, List.foldl_nil, Nat.add_assoc, Nat.reduceAdd]
  rw [s0, s1, s2, s3, s4]
  rfl

theorem twenty_spec {M : Nat → BitVec 32} {t : Nat} {s : List (BitVec 32) × Regs5}
    {F : BitVec 32 → BitVec 32 → BitVec 32 → BitVec 32} {K : BitVec 32} (hF : ∀ i, i < 20 → F = f1 (t + i))
    (hK : ∀ i, i < 20 → K = k1 (t + i)) (h : Win M t s.1) :
    (twenty F K t s).2 = (List.range' t 20).foldl (round1 M) s.2 ∧ Win M (t + 20) (twenty F K t s).1 := by
  unfold twenty
  dsimp only
  have a1 := five_spec (fun i hi => hF i (by omega)) (fun i hi => hK i (by omega)) h s.2
  generalize five F K t s.1 s.2 = s1 at a1 ⊢
  have a2 := five_spec (t := t + 5) (fun i hi => by rw [Nat.add_assoc]; exact hF (5 + i) (by omega))
    (fun i hi => by rw [Nat.add_assoc]; exact hK (5 + i) (by omega)) a1.2 s1.2
  generalize five F K (t + 5) s1.1 s1.2 = s2 at a2 ⊢
  have a3 := five_spec (t := t + 10) (fun i hi => by rw [Nat.add_assoc]; exact hF (10 + i) (by omega))
    (fun i hi => by rw [Nat.add_assoc]; exact hK (10 + i) (by omega)) a2.2 s2.2
  generalize five F K (t + 10) s2.1 s2.2 = s3 at a3 ⊢
  have a4 := five_spec (t := t + 15) (fun i hi => by rw [Nat.add_assoc]; exact hF (15 + i) (by omega))
    (fun i hi => by rw [Nat.add_assoc]; exact hK (15 + i) (by omega)) a3.2 s3.2
  refine ⟨?_, a4.2⟩
  have hr : List.range' t 20 = List.range' t 5 ++ List.range' (t + 5) 5 ++ List.range' (t + 10) 5 ++
      List.range' (t + 15) 5 := by
    simp [List.range'_succ]
  rw [a4.1, a3.1, a2.1, a1.1, hr, List.foldl_append, List.foldl_append, List.foldl_append]

theorem ch_alt {n} (x y z : BitVec n) : z ^^^ (x &&& (y ^^^ z)) = ch x y z := by
  apply BitVec.eq_of_getLsbD_eq
  intro i hi
  simp only [ch, BitVec.getLsbD_xor, BitVec.getLsbD_and, BitVec.getLsbD_not, hi]
  cases x.getLsbD i <;> cases y.getLsbD i <;> cases z.getLsbD i <;> rfl

theorem maj_alt {n} (x y z : BitVec n) : (x &&& y) ||| (z &&& (x ||| y)) = maj x y z := by
  apply BitVec.eq_of_getLsbD_eq
  intro i hi
  simp only [maj, BitVec.getLsbD_xor, BitVec.getLsbD_and, BitVec.getLsbD_or]
  cases x.getLsbD i <;> cases y.getLsbD i <;> cases z.getLsbD i <;> rfl

theorem process_spec (st : Regs5) {b : List Byte} (hb : b.length = 64) :
    process st b = compress1 st (wordBE 4 b) := by
  unfold process
  dsimp only
  have h0 : Win (wordBE 4 b) 0 ((List.range 16).map fun i =>
      read32be (b.getD (4 * i) 0) (b.getD (4 * i + 1) 0) (b.getD (4 * i + 2) 0) (b.getD (4 * i + 3) 0)) := by
    refine ⟨by simp, ?_⟩
    intro i _ hi
    have hi : i < 16 := by omega
    rw [Nat.mod_eq_of_lt hi, sched1.eq_def, if_pos hi, wordBE_four (by omega), List.getD_eq_getElem?_getD,
      List.getElem?_map, List.getElem?_range hi]
    rfl
  generalize ((List.range 16).map fun i =>
      read32be (b.getD (4 * i) 0) (b.getD (4 * i + 1) 0) (b.getD (4 * i + 2) 0) (b.getD (4 * i + 3) 0)) = W at h0 ⊢
  generalize wordBE 4 b = M at h0 ⊢
  obtain ⟨h1, w1⟩ := twenty_spec (t := 0) (s := (W, st)) (F := fun x y z => z ^^^ (x &&& (y ^^^ z))) (K := 0x5A827999#32)
    (fun i hi => by funext x y z; rw [f1, if_pos (by omega), ch_alt]) (fun i hi => by rw [k1, if_pos (by omega)]) h0
  generalize twenty (fun x y z => z ^^^ (x &&& (y ^^^ z))) 0x5A827999#32 0 (W, st) = s1 at h1 w1 ⊢
  obtain ⟨h2, w2⟩ := twenty_spec (t := 20) (s := s1) (F := fun x y z => x ^^^ y ^^^ z) (K := 0x6ED9EBA1#32)
    (fun i hi => by funext x y z; rw [f1, if_neg (by omega), if_pos (by omega)])
    (fun i hi => by rw [k1, if_neg (by omega), if_pos (by omega)]) w1
  generalize twenty (fun x y z => x ^^^ y ^^^ z) 0x6ED9EBA1#32 20 s1 = s2 at h2 w2 ⊢
  obtain ⟨h3, w3⟩ := twenty_spec (t := 40) (s := s2) (F := fun x y z => (x &&& y) ||| (z &&& (x ||| y)))
    (K := 0x8F1BBCDC#32)
    (fun i hi => by funext x y z; rw [f1, if_neg (by omega), if_neg (by omega), if_pos (by omega), maj_alt])
    (fun i hi => by rw [k1, if_neg (by omega), if_neg (by omega), if_pos (by omega)]) w2
  generalize twenty (fun x y z => (x &&& y) ||| (z &&& (x ||| y))) 0x8F1BBCDC#32 40 s2 = s3 at h3 w3 ⊢
  obtain ⟨h4, w4⟩ := twenty_spec (t := 60) (s := s3) (F := fun x y z => x ^^^ y ^^^ z) (K := 0xCA62C1D6#32)
    (fun i hi => by funext x y z; rw [f1, if_neg (by omega), if_neg (by omega), if_neg (by omega)])
    (fun i hi => by rw [k1, if_neg (by omega), if_neg (by omega), if_neg (by omega)]) w3
  generalize twenty (fun x y z => x ^^^ y ^^^ z) 0xCA62C1D6#32 60 s3 = s4 at h4 w4 ⊢
  have hr : List.range 80 = List.range' 0 20 ++ List.range' 20 20 ++ List.range' 40 20 ++ List.range' 60 20 := by
    decide
  rw [compress1, hr, List.foldl_append, List.foldl_append, List.foldl_append, ← h1, ← h2, ← h3, ← h4]
  simp only [BitVec.add_comm]

abbrev Rep (c : Ctx) (m : List Byte) : Prop := Blk.Rep 6 process init.state c m

theorem init_rep : Rep init [] := ⟨Md.nil (by omega), by simp [init], by simp [init]⟩

theorem update_rep {c : Ctx} {m d : List Byte} (hd : d.length < 2 ^ 32) (h : Rep c m) : Rep (update c d) (m ++ d) :=
  Blk.update_rep (by omega) (by omega) hd h

theorem digest_spec {c : Ctx} {m : List Byte} (h : Rep c m) : digest c = HashS.sha1 m := by
  have hlast : (c.len0 &&& 0x3F#32).toNat = m.length % 64 := h.left (by omega)
  have hbits := Blk.bits_value (by omega) h.count
  have hmsg : write32be ((c.len0 >>> 29) ||| (c.len1 <<< 3)) ++ write32be (c.len0 <<< 3) =
      encodeBE 8 (8 * m.length) := by
    rw [write32be_pair]
    have := hbits
    rw [show 32 - 3 = 29 from rfl, show 2 ^ 32 * 2 ^ 32 = 18446744073709551616 by norm_num] at this
    rw [show 4294967296 = 2 ^ 32 by norm_num, this, encodeBE_mod8]
  have hlt := Nat.mod_lt m.length (show 0 < 64 by omega)
  unfold digest
  dsimp only
  rw [hmsg, hlast]
  have hml : (encodeBE 8 (8 * m.length)).length = 8 := Verif.Modes.encodeBE_length _ _
  generalize hpl : (if m.length % 64 < 56 then 56 - m.length % 64 else 120 - m.length % 64) = padlen
  have hpad : (0x80#8 :: List.replicate 63 0).take padlen = [0x80#8] ++ List.replicate (padlen - 1) 0 := by
    have : 0 < padlen ∧ padlen ≤ 64 := by split_ifs at hpl <;> omega
    obtain ⟨q, rfl⟩ : ∃ q, padlen = q + 1 := ⟨padlen - 1, by omega⟩
    rw [List.take_succ_cons, List.take_replicate, Nat.min_eq_left (by omega)]
    rfl
  have hz : padlen - 1 = (64 - (m.length + 1 + 8) % 64) % 64 := by split_ifs at hpl <;> omega
  have h1 := update_rep (d := (0x80#8 :: List.replicate 63 0).take padlen)
    (by rw [List.length_take]; simp) h
  have h2 := update_rep (d := encodeBE 8 (8 * m.length)) (by omega) h1
  have hm : m ++ (0x80#8 :: List.replicate 63 0).take padlen ++ encodeBE 8 (8 * m.length) =
      mdPad 64 8 (encodeBE 8 (8 * m.length)) m := by
    rw [hpad, mdPad, hz]
    simp only [List.append_assoc]
    rfl
  rw [hm] at h2
  have hlen : (mdPad 64 8 (encodeBE 8 (8 * m.length)) m).length % 64 = 0 := by
    rw [mdPad]
    simp only [List.length_append, hml, List.length_replicate, List.length_singleton]
    omega
  have hmd := h2.md
  rw [show 2 ^ 6 = 64 from rfl, hlen, List.take_zero] at hmd
  have hst := hmd.done
  rw [mdFold_congr (by omega) (fun s b hb => process_spec s hb)] at hst
  generalize (update (update c _) _).state = st at hst ⊢
  unfold HashS.sha1
  rw [show init.state = ⟨0x67452301#32, 0xefcdab89#32, 0x98badcfe#32, 0x10325476#32, 0xc3d2e1f0#32⟩ from rfl] at hst
  dsimp only
  rw [hst]
  simp only [List.map_cons, List.map_nil, List.flatten_cons, List.flatten_nil, write32be_encode, List.append_nil,
    List.append_assoc]

end Verif.Hash.Sha1
