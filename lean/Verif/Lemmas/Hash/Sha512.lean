import Verif.Lemmas.Hash.Block
import Verif.Lemmas.Hash.Sha2
import Verif.Lemmas.Hash.Sha1
import Verif.Model.Hash.Sha512
/-! SHA-512 and SHA-384. -/
namespace Verif.Hash.Sha512
open Verif.HashS Verif.HashL
open Verif.Modes (Blocks encodeBE)

theorem k512_eq : k512 = primes.map (cubeFrac 64) := by decide +kernel

theorem primes_length : primes.length = 80 := by decide +kernel

theorem k512_get {t : Nat} (h : t < 80) : k512.getD t 0 = p512.K t := by
  have hp := primes_length
  show _ = cubeFrac 64 (primes.getD t 0)
  rw [k512_eq, List.getD_eq_getElem?_getD, List.getElem?_map, List.getD_eq_getElem?_getD,
    List.getElem?_eq_getElem (by omega)]
  rfl

theorem extend_isSched (M : Nat → BitVec 64) : ∀ (n : Nat) (m : List (BitVec 64)), IsSched p512 M m →
    IsSched p512 M (extend n m) ∧ (extend n m).length = m.length + n
  | 0, m, h => ⟨h, rfl⟩
  | n + 1, m, h => by
    rw [extend]
    obtain ⟨h1, h2⟩ := extend_isSched M n _ h.snoc
    refine ⟨h1, ?_⟩
    refine Eq.trans h2 ?_
    rw [List.length_append, List.length_singleton]; omega

theorem wordBE_eight {l : List Byte} {t : Nat} (h : 8 * t + 8 ≤ l.length) :
    wordBE 8 l t = read64be (l.getD (8 * t) 0) (l.getD (8 * t + 1) 0) (l.getD (8 * t + 2) 0) (l.getD (8 * t + 3) 0)
      (l.getD (8 * t + 4) 0) (l.getD (8 * t + 5) 0) (l.getD (8 * t + 6) 0) (l.getD (8 * t + 7) 0) := by
  have h8 : (l.drop (8 * t)).take 8 = (l.drop (8 * t)).take 4 ++ (l.drop (8 * t + 4)).take 4 := by
    rw [show 8 = 4 + 4 from rfl, List.take_add, List.drop_drop]
  rw [wordBE, h8, four_of_length (by omega), four_of_length (by omega)]
  simp only [List.cons_append, List.nil_append, beVal_eight]
  apply BitVec.eq_of_toNat_eq
  rw [BitVec.toNat_ofNat]
  exact Nat.mod_eq_of_lt (BitVec.isLt _)

theorem load_isSched {b : List Byte} (hb : b.length = 128) : IsSched p512 (wordBE 8 b) (load b) := by
  have hl : (load b).length = 16 := by simp [load]
  refine ⟨by omega, ?_⟩
  intro t ht
  rw [hl] at ht
  rw [sched_low _ _ ht, wordBE_eight (by omega), load, List.getD_eq_getElem?_getD, List.getElem?_map,
    List.getElem?_range ht]
  rfl

theorem step_spec {M : Nat → BitVec 64} {m : List (BitVec 64)} (hm : IsSched p512 M m) (hl : m.length = 80) {i : Nat}
    (hi : i < 80) (a b c d e f g h : BitVec 64) :
    round p512 M ⟨a, b, c, d, e, f, g, h⟩ i =
      ⟨(P a b c d e f g h (m.getD i 0) (k512.getD i 0)).2, a, b, c,
        (P a b c d e f g h (m.getD i 0) (k512.getD i 0)).1, e, f, g⟩ := by
  rw [k512_get hi, hm.2 i (by omega)]
  unfold P round F0 F1
  dsimp only
  rw [Sha1.ch_alt, Sha1.maj_alt]
  rfl

theorem eight_spec {M : Nat → BitVec 64} {m : List (BitVec 64)} (hm : IsSched p512 M m) (hl : m.length = 80) {i : Nat}
    (hi : i + 8 ≤ 80) (r : Regs 64) : eight m i r = (List.range' i 8).foldl (round p512 M) r := by
  obtain ⟨a, b, c, d, e, f, g, h⟩ := r
  have s0 := step_spec hm hl (i := i) (by omega)
  have s1 := step_spec hm hl (i := i + 1) (by omega)
  have s2 := step_spec hm hl (i := i + 2) (by omega)
  have s3 := step_spec hm hl (i := i + 3) (by omega)
  have s4 := step_spec hm hl (i := i + 4) (by omega)
  have s5 := step_spec hm hl (i := i + 5) (by omega)
  have s6 := step_spec hm hl (i := i + 6) (by omega)
  have s7 := step_spec hm hl (i := i + 7) (by omega)
  simp only [List.range'_succ, List.range'_zero, List.foldl_cons, List.foldl_nil, Nat.add_assoc, Nat.reduceAdd]
  rw [s0, s1, s2, s3, s4, s5, s6, s7]
  rfl

theorem rounds_spec {M : Nat → BitVec 64} {m : List (BitVec 64)} (hm : IsSched p512 M m) (hl : m.length = 80) :
    ∀ (n i : Nat) (r : Regs 64), i + 8 * n ≤ 80 → rounds m n i r = (List.range' i (8 * n)).foldl (round p512 M) r
  | 0, i, r, _ => rfl
  | n + 1, i, r, hi => by
    rw [rounds, eight_spec hm hl (by omega), rounds_spec hm hl n _ _ (by omega), ← List.foldl_append]
    congr 1

theorem process_spec (s : Regs 64) {b : List Byte} (hb : b.length = 128) :
    process s b = compress p512 s (wordBE 8 b) := by
  obtain ⟨h1, h2⟩ := extend_isSched _ 64 _ (load_isSched hb)
  have hl : (extend 64 (load b)).length = 80 := by rw [h2]; simp [load]
  have hr := rounds_spec h1 hl 10 0 s (by omega)
  rw [show 8 * 10 = 80 from rfl, ← List.range_eq_range'] at hr
  unfold process compress
  dsimp only
  rw [hr, show p512.rounds = 80 from rfl]
  generalize (List.range 80).foldl (round p512 (wordBE 8 b)) s = r
  simp only [BitVec.add_comm]

theorem fold_spec (s : Regs 64) (l : List Byte) :
    mdFold 128 process s l = mdFold 128 (fun H b => compress p512 H (wordBE 8 b)) s l :=
  mdFold_congr (by omega) (fun _ _ hb => process_spec _ hb) s l

abbrev Rep (is384 : Bool) (c : Ctx) (m : List Byte) : Prop := Blk.Rep 7 process (init is384).state c m

theorem init_rep (is384 : Bool) : Rep is384 (init is384) [] := ⟨Md.nil (by omega), by simp [init], by simp [init]⟩

theorem update_rep {is384 : Bool} {c : Ctx} {m d : List Byte} (hd : d.length < 2 ^ 32) (h : Rep is384 c m) :
    Rep is384 (update c d) (m ++ d) :=
  Blk.update_rep (by omega) (by omega) hd h

/-- The output for a state. -/
def out (is384 : Bool) (st : Regs 64) : List Byte := if is384 = false then st.bytes else st.bytes.take 48

theorem out_eq (is384 : Bool) (st : Regs 64) :
    (if is384 = false then (write64be st.a ++ write64be st.b ++ write64be st.c ++ write64be st.d ++ write64be st.e ++
      write64be st.f) ++ write64be st.g ++ write64be st.h else write64be st.a ++ write64be st.b ++ write64be st.c ++
      write64be st.d ++ write64be st.e ++ write64be st.f) = out is384 st := by
  have hb : st.bytes = (write64be st.a ++ write64be st.b ++ write64be st.c ++ write64be st.d ++ write64be st.e ++
      write64be st.f) ++ write64be st.g ++ write64be st.h := by
    simp only [Regs.bytes, List.map_cons, List.map_nil, List.flatten_cons, List.flatten_nil, write64be_encode,
      List.append_nil, List.append_assoc, show 64 / 8 = 8 from rfl]
  rw [out, hb]
  cases is384 <;> rfl

theorem encodeBE_mod16 (n : Nat) : encodeBE 16 (n % (18446744073709551616 * 18446744073709551616)) = encodeBE 16 n := by
  have h := Verif.Modes.encodeBE_mod 16 n
  rw [show 256 ^ 16 = 18446744073709551616 * 18446744073709551616 by norm_num] at h
  exact h

/-- What `cry_sha512_digest` computes. -/
theorem digest_state {is384 : Bool} {c : Ctx} {m : List Byte} (h : Rep is384 c m) :
    digest is384 c = out is384 (mdFold 128 process (init is384).state
      (if m.length % 128 < 112 then mdPad 128 16 (encodeBE 16 (8 * m.length)) m
        else m ++ [0x80] ++ List.replicate (127 - m.length % 128) 0)) := by
  have hlast : (c.len0 &&& 0x7F#64).toNat = m.length % 128 := h.left (by omega)
  have hmsg : write64be ((c.len0 >>> 61) ||| (c.len1 <<< 3)) ++ write64be (c.len0 <<< 3) =
      encodeBE 16 (8 * m.length) := by
    rw [write64be_pair]
    have := Blk.bits_value (by omega) h.count
    rw [show 64 - 3 = 61 from rfl, show 2 ^ 64 = 18446744073709551616 by norm_num] at this
    rw [this, encodeBE_mod16]
  have hlt := Nat.mod_lt m.length (show 0 < 128 by omega)
  unfold digest
  dsimp only
  rw [hmsg, hlast]
  have hml : (encodeBE 16 (8 * m.length)).length = 16 := Verif.Modes.encodeBE_length _ _
  generalize hpl : (if m.length % 128 < 112 then 112 - m.length % 128 else 128 - m.length % 128) = padlen
  have hpos : 0 < padlen ∧ padlen ≤ 128 := by split_ifs at hpl <;> omega
  have hpad : (0x80#8 :: List.replicate 127 0).take padlen = [0x80#8] ++ List.replicate (padlen - 1) 0 := by
    obtain ⟨q, rfl⟩ : ∃ q, padlen = q + 1 := ⟨padlen - 1, by omega⟩
    rw [List.take_succ_cons, List.take_replicate, Nat.min_eq_left (by omega)]
    rfl
  have hplen : ((0x80#8 :: List.replicate 127 0).take padlen).length = padlen := by
    rw [hpad, List.length_append, List.length_replicate, List.length_singleton]; omega
  have h1 := update_rep (d := (0x80#8 :: List.replicate 127 0).take padlen) (by omega) h
  have h2 := update_rep (d := encodeBE 16 (8 * m.length)) (by omega) h1
  generalize update (update c ((0x80#8 :: List.replicate 127 0).take padlen)) (encodeBE 16 (8 * m.length)) = c' at h2 ⊢
  rw [out_eq]
  have hmd := h2.md
  rw [show 2 ^ 7 = 128 from rfl, List.length_append, List.length_append, hml, hplen] at hmd
  by_cases hc : m.length % 128 < 112
  · rw [if_pos hc] at hpl ⊢
    rw [show (m.length + padlen + 16) % 128 = 0 by omega, List.take_zero] at hmd
    have hd := hmd.done
    refine congrArg (out is384) (Eq.trans hd.symm ?_)
    have hz : padlen - 1 = (128 - (m.length + 1 + 16) % 128) % 128 := by omega
    rw [hpad, mdPad, hz]
    simp only [List.append_assoc]
    rfl
  · rw [if_neg hc] at hpl ⊢
    obtain ⟨hr, bs, hb, hcat, hst⟩ := hmd
    have hrl : (c'.data.take ((m.length + padlen + 16) % 128)).length = 16 := by
      rw [List.length_take, h2.len, show (m.length + padlen + 16) % 128 = 16 by omega]; rfl
    obtain ⟨e1, -⟩ := List.append_inj' hcat (by rw [hml, hrl])
    have : m ++ [0x80] ++ List.replicate (127 - m.length % 128) 0 = bs.flatten ++ [] := by
      rw [List.append_nil, ← e1, hpad, show padlen - 1 = 127 - m.length % 128 by omega, List.append_assoc]
      rfl
    refine congrArg (out is384) ?_
    rw [this, mdFold_blocks (by omega) bs _ _ hb, mdFold_nil, hst]

theorem iv_eq (is384 : Bool) : (init is384).state = ivOf 64 fun i => primes.getD (if is384 then i + 8 else i) 0 := by
  cases is384 <;> decide +kernel

end Verif.Hash.Sha512
