import Verif.Lemmas.Hash.Sha2
import Verif.Model.Hash.Sha256
/-! SHA-256. -/
namespace Verif.Hash.Sha256
open Verif.HashS Verif.HashL
open Verif.Modes (Blocks encodeBE)

theorem k256_eq : k256 = (primes.take 64).map (cubeFrac 32) := by decide +kernel

theorem k256_get {t : Nat} (h : t < 64) : k256.getD t 0 = p256.K t := by
  have hp : primes.length = 80 := by decide +kernel
  show _ = cubeFrac 32 (primes.getD t 0)
  rw [k256_eq, List.getD_eq_getElem?_getD, List.getElem?_map, List.getElem?_take, if_pos h, List.getD_eq_getElem?_getD,
    List.getElem?_eq_getElem (by omega)]
  rfl

theorem extend_isSched (M : Nat → BitVec 32) : ∀ (n : Nat) (m : List (BitVec 32)), IsSched p256 M m →
    IsSched p256 M (extend n m) ∧ (extend n m).length = m.length + n
  | 0, m, h => ⟨h, rfl⟩
  | n + 1, m, h => by
    rw [extend]
    obtain ⟨h1, h2⟩ := extend_isSched M n _ h.snoc
    refine ⟨h1, ?_⟩
    refine Eq.trans h2 ?_
    rw [List.length_append, List.length_singleton]; omega

theorem load_isSched {b : List Byte} (hb : b.length = 64) : IsSched p256 (wordBE 4 b) (load b) := by
  have hl : (load b).length = 16 := by simp [load]
  refine ⟨by omega, ?_⟩
  intro t ht
  rw [hl] at ht
  rw [sched_low _ _ ht, wordBE_four (by omega), load, List.getD_eq_getElem?_getD, List.getElem?_map,
    List.getElem?_range ht]
  rfl

theorem rounds_spec (M : Nat → BitVec 32) {m : List (BitVec 32)} (hm : IsSched p256 M m) (hl : m.length = 64) :
    ∀ (n i : Nat) (r : Regs 32), i + n ≤ 64 → rounds m n i r = (List.range' i n).foldl (round p256 M) r
  | 0, i, r, _ => rfl
  | n + 1, i, ⟨a, b, c, d, e, f, g, h⟩, hi => by
    rw [rounds, List.range'_succ, List.foldl_cons, rounds_spec M hm hl n (i + 1) _ (by omega), k256_get (by omega),
      hm.2 i (by omega)]
    congr 1

theorem transform_spec (s : Regs 32) {b : List Byte} (hb : b.length = 64) :
    transform s b = compress p256 s (wordBE 4 b) := by
  obtain ⟨h1, h2⟩ := extend_isSched _ 48 _ (load_isSched hb)
  have hl : (extend 48 (load b)).length = 64 := by rw [h2]; simp [load]
  have hr := rounds_spec _ h1 hl 64 0 s (by omega)
  rw [← List.range_eq_range'] at hr
  unfold transform compress
  dsimp only
  rw [hr, show p256.rounds = 64 from rfl]
  generalize (List.range 64).foldl (round p256 (wordBE 4 b)) s = r
  simp only [BitVec.add_comm]

/-- The context has consumed `m`. -/
structure Rep (c : Ctx) (m : List Byte) : Prop where
  md : Md 64 transform init.state m c.state (c.data.take c.datalen)
  len : c.data.length = 64
  fill : c.datalen < 64
  bits : c.bitlen + BitVec.ofNat 64 (c.datalen * 8) = BitVec.ofNat 64 (8 * m.length)

theorem init_rep : Rep init [] := ⟨Md.nil (by omega), by simp [init], by simp [init], rfl⟩

theorem take_set_succ {l : List Byte} {n : Nat} (h : n < l.length) (x : Byte) :
    (l.set n x).take (n + 1) = l.take n ++ [x] := by
  rw [List.take_add_one, List.take_set_of_le (Nat.le_refl _), List.getElem?_set_self h]
  rfl

theorem update_rep : ∀ (d : List Byte) (c : Ctx) (m : List Byte), Rep c m → Rep (update c d) (m ++ d)
  | [], c, m, h => by rw [List.append_nil]; exact h
  | x :: d, c, m, h => by
    have ht : (c.data.take c.datalen).length = c.datalen := by
      rw [List.length_take, h.len]; have := h.fill; omega
    have hset := take_set_succ (l := c.data) (by rw [h.len]; exact h.fill) x
    have hfill := h.fill
    have hb := h.bits
    rw [update, show m ++ x :: d = (m ++ [x]) ++ d by simp]
    split_ifs with h64
    · refine update_rep d _ _ ⟨?_, by simp [h.len], by simp, ?_⟩
      · have := h.md.full (d := [x]) (by rw [ht]; exact h64)
        rw [← hset, h64, List.take_of_length_le (by simp [h.len])] at this
        exact this
      · show c.bitlen + 512 + BitVec.ofNat 64 (0 * 8) = _
        have h63 : c.datalen = 63 := by omega
        rw [h63] at hb
        have e1 : BitVec.ofNat 64 (8 * (m ++ [x]).length) = BitVec.ofNat 64 (8 * m.length) + BitVec.ofNat 64 8 := by
          rw [List.length_append, List.length_singleton, Nat.mul_add, BitVec.ofNat_add]
        rw [e1, ← hb, BitVec.add_assoc, BitVec.add_assoc]
        rfl
    · refine update_rep d _ _ ⟨?_, by simp [h.len], by show c.datalen + 1 < 64; omega, ?_⟩
      · have := h.md.short (d := [x]) (by rw [ht]; simp; omega)
        rw [← hset] at this
        exact this
      · show c.bitlen + BitVec.ofNat 64 ((c.datalen + 1) * 8) = _
        have e1 : BitVec.ofNat 64 (8 * (m ++ [x]).length) = BitVec.ofNat 64 (8 * m.length) + BitVec.ofNat 64 8 := by
          rw [List.length_append, List.length_singleton, Nat.mul_add, BitVec.ofNat_add]
        rw [e1, ← hb, Nat.add_mul, BitVec.ofNat_add, BitVec.add_assoc]

theorem fold_spec (s : Regs 32) (l : List Byte) :
    mdFold 64 transform s l = mdFold 64 (fun H b => compress p256 H (wordBE 4 b)) s l :=
  mdFold_congr (by omega) (fun _ _ hb => transform_spec _ hb) s l

theorem digest_spec {c : Ctx} {m : List Byte} (h : Rep c m) : digest c = HashS.sha256 m := by
  have hfill := h.fill
  have ht : (c.data.take c.datalen).length = c.datalen := by
    rw [List.length_take, h.len]; omega
  have hlen : (encodeBE 8 (8 * m.length)).length = 8 := Verif.Modes.encodeBE_length _ _
  have hiv : init.state = ivOf 32 fun i => primes.getD i 0 := by decide +kernel
  have hfin : ∀ st, st = mdFold 64 transform init.state (mdPad 64 8 (encodeBE 8 (8 * m.length)) m) →
      write32be st.a ++ write32be st.b ++ write32be st.c ++ write32be st.d ++ write32be st.e ++ write32be st.f ++
        write32be st.g ++ write32be st.h = HashS.sha256 m := by
    intro st hst
    rw [fold_spec, hiv] at hst
    rw [HashS.sha256, ← hst, Regs.bytes]
    simp only [List.map_cons, List.map_nil, List.flatten_cons, List.flatten_nil, write32be_encode, List.append_nil,
      List.append_assoc, show 32 / 8 = 4 from rfl]
  unfold digest
  dsimp only
  apply hfin
  rw [h.bits, len_bytes]
  by_cases h56 : c.datalen < 56
  · rw [h.md.pad_one hlen (by omega) (by rw [ht]; omega), if_pos h56, ht]
    dsimp only
    congr 1
    rw [List.take_append_of_le_length (by simp [ht]; omega), List.take_of_length_le (by simp [ht]; omega),
      show 64 - (c.datalen + 1 + 8) = 55 - c.datalen by omega]
  · rw [h.md.pad_two hlen (by omega) (by rw [ht]; omega), if_neg h56, ht]
    dsimp only
    rw [List.take_append_of_le_length (by simp), List.take_of_length_le (l := List.replicate 56 0) (by simp),
      show 64 - (c.datalen + 1) = 63 - c.datalen by omega]

end Verif.Hash.Sha256
