import Verif.Model.Ram.Gcm
import Verif.Lemmas.Ram.Ctr
import Verif.Lemmas.Modes.Gcm
import Verif.Spec.Ram
/-! GCM on buffers in memory: the functions do to memory what the functions on byte strings compute. -/
namespace Verif.Ram
open Verif.Modes (gfMul inc32 xorB mxor xorInto encodeBE xorInto_length)
open Verif.Gf (gfMul_length)

theorem fill_eq {R : Ram} {a n : Nat} {v : Byte} (h : R.Owned a n) : fill R a v n = some (R.put a (List.replicate n v)) := if_pos h

/-- A prefix of a range is overwritten. -/
theorem bytes_put_prefix {R : Ram} {a n : Nat} {l : List Byte} (h : l.length ≤ n) : (R.put a l).bytes a n = l ++ (R.bytes a n).drop l.length := by
  rw [bytes_split a h, bytes_put_same rfl, bytes_put_apart (by apt), bytes_split (R := R) a h, List.drop_left' (bytes_length _ _)]

theorem gcmMul_eq {R : Ram} {x y : Nat} (h1 : R.Owned x 16) (h2 : R.Owned y 16) : gcmMul R x y = some (R.put x (gfMul (R.bytes x 16) (R.bytes y 16))) :=
  if_pos ⟨h1, h2⟩

theorem gcmHashLoop_len (key : List Byte) : ∀ (k : Nat) (h data : List Byte), h.length = 16 → (Modes.gcmHashLoop key k h data).length = 16
  | 0, _, _, hh => hh
  | k + 1, h, data, hh => by
    rw [Modes.gcmHashLoop]
    split_ifs with h1 h2
    · exact gcmHashLoop_len key k _ _ (gfMul_length (xorInto_length hh (by simp)) _)
    · exact gfMul_length (xorInto_length hh (by omega)) _
    · exact hh

theorem mxor_prefix {a b : List Byte} (c : List Byte) (h : a.length = b.length) : mxor (a ++ c) b = xorB a b := by
  rw [Modes.mxor_eq, Modes.xorB, Modes.xorB, ← List.append_nil b, List.zipWith_append h]
  simp

theorem gcmHashLoop_ram {hs key : Nat} (hk : Apart hs 16 key 16) : ∀ (k : Nat) (R : Ram) (data len : Nat), len < k → R.Owned hs 16 → R.Owned key 16 →
    R.Owned data len → Apart hs 16 data len →
    gcmHashLoop hs key k R data len = some (R.put hs (Modes.gcmHashLoop (R.bytes key 16) k (R.bytes hs 16) (R.bytes data len)))
  | 0, _, _, _, h, _, _, _, _ => by omega
  | k + 1, R, data, len, hl, oh, ok, od, ha => by
    rw [gcmHashLoop, Modes.gcmHashLoop, bytes_length]
    by_cases h16 : 16 ≤ len
    · have hx : (xorB (R.bytes hs 16) (R.bytes data 16)).length = 16 := by rw [Modes.xorB_length, bytes_length, bytes_length]; rfl
      have hm := gfMul_length hx (R.bytes key 16)
      rw [if_pos h16, if_pos h16, xor1_eq (owned_sub od (by omega) (by omega)) oh, Option.bind_some,
        gcmMul_eq (by ownof oh) (by ownof ok), Option.bind_some, bytes_put_same hx, bytes_put_apart (by rw [hx]; exact hk), put_put_same (by rw [hm, hx]),
        gcmHashLoop_ram hk k _ _ _ (by omega) (by ownof oh) (by ownof ok) (by ownof od) (by apof ha), put_put_same, bytes_put_same hm,
        bytes_put_apart (by rw [hm]; exact hk), bytes_put_apart (by rw [hm]; apof ha), bytes_drop rfl h16]
      · congr 3
        rw [xorInto, bytes_split data h16, List.take_left' (bytes_length _ _), bytes_length, List.drop_of_length_le (by rw [bytes_length]), List.append_nil]
        rfl
      · rw [hm, gcmHashLoop_len _ _ _ _ (bytes_length _ _)]
    · rw [if_neg h16, if_neg h16]
      by_cases h0 : 0 < len
      · have hx : (xorB (R.bytes hs len) (R.bytes data len)).length = len := by rw [Modes.xorB_length, bytes_length, bytes_length]; omega
        rw [if_pos h0, if_pos h0, xor1_eq od (by ownof oh), Option.bind_some, gcmMul_eq (by ownof oh) (by ownof ok), bytes_put_prefix (by omega),
          bytes_put_apart (by rw [hx]; apof hk), hx]
        have hi : xorB (R.bytes hs len) (R.bytes data len) ++ (R.bytes hs 16).drop len = xorInto (R.bytes hs 16) (R.bytes data len) := by
          unfold xorInto
          rw [bytes_length, bytes_split (R := R) hs (show len ≤ 16 by omega), mxor_prefix _ (by rw [bytes_length, bytes_length])]
        rw [hi, put_put_same]
        rw [hx, gfMul_length (xorInto_length (bytes_length _ _) (by rw [bytes_length]; omega))]
        omega
      · rw [if_neg h0, if_neg h0, put_bytes]

/-- `gcm_hash` on memory. -/
theorem gcmHash_ram {R : Ram} {hs key data len : Nat} (hk : Apart hs 16 key 16) (oh : R.Owned hs 16) (ok : R.Owned key 16) (od : R.Owned data len)
    (ha : Apart hs 16 data len) :
    gcmHash hs key R data len = some (R.put hs (Modes.gcmHash (R.bytes hs 16) (R.bytes key 16) (R.bytes data len))) := by
  rw [gcmHash, gcmHashLoop_ram hk _ _ _ _ (by omega) oh ok od ha, Modes.gcmHash, bytes_length]

/-- The array of `gcm_hash_sizes`. -/
theorem sizes_put {R : Ram} {b : Nat} {u v : List Byte} (hu : u.length = 4) (hv : v.length = 4) :
    ((R.put b (List.replicate 16 0)).put (b + 4) u).put (b + 12) v = R.put b (List.replicate 4 0 ++ u ++ List.replicate 4 0 ++ v) := by
  have hz : (List.replicate 4 (0 : Byte)).length = 4 := by simp
  rw [show List.replicate 16 (0 : Byte) = List.replicate 4 0 ++ List.replicate 4 0 ++ List.replicate 4 0 ++ List.replicate 4 0 by rfl]
  simp only [put_append, List.length_append, hz, hu, Nat.reduceAdd]
  rw [put_comm (a := b + 12) (b := b + 4) (by rw [hz, hu]; apt), put_put_same (a := b + 12) (by rw [hz, hv]),
    put_comm (a := b + 8) (b := b + 4) (by rw [hz, hu]; apt), put_put_same (a := b + 4) (by rw [hz, hu])]

/-- `gcm_hash_sizes` on memory. -/
theorem gcmHashSizes_ram {R : Ram} {hs key buf : Nat} (hk : Apart hs 16 key 16) (oh : R.Owned hs 16) (ok : R.Owned key 16) (ob : R.Owned buf 16)
    (hb : Apart hs 16 buf 16) (kb : Apart key 16 buf 16) (a c : BitVec 64) : ∃ R', gcmHashSizes hs key buf R a c = some R' ∧ R'.own = R.own ∧ R'.tmp = R.tmp ∧
    R'.bytes hs 16 = Modes.gcmHashSizes (R.bytes hs 16) (R.bytes key 16) a c ∧
    ∀ x, Outside x hs 16 → Outside x buf 16 → R'.mem x = R.mem x := by
  have ha := write32be_length ((a <<< 3).setWidth 32)
  have hc := write32be_length ((c <<< 3).setWidth 32)
  have hl : ∀ l : List Byte, l.length = 16 → (Modes.gcmHash (R.bytes hs 16) (R.bytes key 16) l).length = 16 := fun l _ => Modes.gcmHash_length _ _ (bytes_length _ _)
  have hz : (List.replicate 4 (0 : Byte) ++ write32be ((a <<< 3).setWidth 32) ++ List.replicate 4 (0 : Byte) ++ write32be ((c <<< 3).setWidth 32)).length = 16 := rfl
  rw [gcmHashSizes, fill_eq ob, Option.bind_some, sizes_put ha hc, gcmHash_ram hk (by ownof oh) (by ownof ok) (by ownof ob) hb, bytes_put_same hz,
    bytes_put_apart (by rw [hz]; exact hb.flip), bytes_put_apart (by rw [hz]; exact kb.flip)]
  refine ⟨_, rfl, rfl, rfl, bytes_put_same (hl _ hz), fun x h1 h2 => ?_⟩
  rw [put_mem_out (by rw [hl _ hz]; exact h1), put_mem_out (by rw [hz]; exact h2)]

/-- The counter of GCM. -/
theorem inc32_ram {R : Ram} {a : Nat} (h : R.Owned a 16) : incr R (a + 12) 4 = some (R.put a (inc32 (R.bytes a 16))) := by
  have e : R.bytes a 16 = R.bytes a 12 ++ R.bytes (a + 12) 4 := bytes_add a 12 4
  have e4 : ∃ n, R.bytes (a + 12) 4 = encodeBE 4 n := ⟨_, by
    have := Modes.encodeBE_beVal (R.bytes (a + 12) 4); rw [bytes_length] at this; exact this.symm⟩
  obtain ⟨n, e4⟩ := e4
  rw [incr_ram (by omega) (by ownof h) e4, inc32, e, List.take_left' (bytes_length _ _), List.drop_left' (bytes_length _ _), e4,
    Modes.incBE_spec (by omega), Option.getD_some, put_append, put_bytes, bytes_length]

theorem inc32_len {l : List Byte} (h : l.length = 16) : (inc32 l).length = 16 := by
  rw [Modes.inc32_eq h]; exact Modes.gcmInc_length h

/-- Where the output of `gcm_operate` may be: on the input, at least a block before it, or behind it; anywhere if there is no whole block. -/
def OpPlace (ip : Bool) (d s n : Nat) : Prop := (ip = true ∧ d = s) ∨ (ip = false ∧ (d + 16 ≤ s ∨ s + n ≤ d ∨ n < 16))

theorem gcmOperateLoop_ram {E : List Byte → List Byte} (hE : ∀ b, b.length = 16 → (E b).length = 16) {ctr buf : Nat} (cb : Apart ctr 16 buf 16) (ip : Bool) :
    ∀ (k : Nat) (R : Ram) (d s n : Nat), n < k → R.Owned ctr 16 → R.Owned buf 16 → R.Owned s n → R.Owned d n → Apart ctr 16 s n → Apart ctr 16 d n →
    Apart buf 16 s n → Apart buf 16 d n → OpPlace ip d s n →
    ∃ R', gcmOperateLoop E ctr buf ip k R d s n = some R' ∧ R'.own = R.own ∧ R'.tmp = R.tmp ∧
      R'.bytes d n = (Modes.gcmOperateLoop E ip k (R.bytes ctr 16) (R.bytes s n)).1 ∧
      R'.bytes ctr 16 = (Modes.gcmOperateLoop E ip k (R.bytes ctr 16) (R.bytes s n)).2 ∧
      ∀ x, Outside x d n → Outside x ctr 16 → Outside x buf 16 → R'.mem x = R.mem x
  | 0, _, _, _, _, h, _, _, _, _, _, _, _, _, _ => by omega
  | k + 1, R, d, s, n, hn, oc, ob, os, od, cs, cd, bs, bd, pl => by
    have hEc := hE _ (bytes_length (R := R) ctr 16)
    have hi := inc32_len (bytes_length (R := R) ctr 16)
    rw [gcmOperateLoop, Modes.gcmOperateLoop, bytes_length]
    by_cases h16 : 16 ≤ n
    · rw [if_pos h16, if_pos h16]
      -- one block
      obtain ⟨R1, e1, o1, t1, b1, f1⟩ : ∃ R1, (if ip then (cipher E 16 1 R buf ctr).bind fun R => xor2 R d s buf 16
          else (cipher E 16 1 R d ctr).bind fun R => xor1 R d s 16) = some R1 ∧ R1.own = R.own ∧ R1.tmp = R.tmp ∧
          R1.bytes d 16 = (if ip then mxor (R.bytes s 16) (E (R.bytes ctr 16)) else mxor (E (R.bytes ctr 16)) (R.bytes s 16)) ∧
          ∀ x, Outside x d 16 → Outside x buf 16 → R1.mem x = R.mem x := by
        cases ip
        · have hs : Apart d 16 s 16 := by
            rcases pl with ⟨h, _⟩ | ⟨_, h⟩
            · cases h
            · unfold Apart; omega
          have hx : (xorB (E (R.bytes ctr 16)) (R.bytes s 16)).length = 16 := by rw [Modes.xorB_length, bytes_length, hEc]; rfl
          rw [if_neg Bool.false_ne_true, if_neg Bool.false_ne_true, cipher_one oc (by ownof od), Option.bind_some, xor1_eq (by ownof os) (by ownof od),
            bytes_put_same hEc, bytes_put_apart (by rw [hEc]; exact hs), put_put_same (by rw [hEc, hx])]
          refine ⟨_, rfl, rfl, rfl, bytes_put_same hx, fun x h1 _ => put_mem_out (by rw [hx]; exact h1)⟩
        · have hx : (xorB (R.bytes s 16) (E (R.bytes ctr 16))).length = 16 := by rw [Modes.xorB_length, bytes_length, hEc]; rfl
          rw [if_pos rfl, if_pos rfl, cipher_one oc ob, Option.bind_some, xor2_eq (by ownof os) (by ownof ob) (by ownof od) (by apof bd),
            bytes_put_same hEc, bytes_put_apart (by rw [hEc]; apof bs)]
          refine ⟨_, rfl, rfl, rfl, bytes_put_same hx, fun x h1 h2 => ?_⟩
          rw [put_mem_out (by rw [hx]; exact h1), put_mem_out (by rw [hEc]; exact h2)]
      have w1 : ∀ a m, R.Owned a m → R1.Owned a m := fun a m h => by unfold Ram.Owned; rw [o1]; exact h
      have c1 : R1.bytes ctr 16 = R.bytes ctr 16 := bytes_ext fun i hi => f1 _ (by unfold Outside; unfold Apart at cd; omega) (by unfold Outside; unfold Apart at cb; omega)
      have s1 : R1.bytes (s + 16) (n - 16) = R.bytes (s + 16) (n - 16) := bytes_ext fun i hi => f1 _
        (by
          unfold Outside
          rcases pl with ⟨_, h⟩ | ⟨_, h⟩
          · omega
          · omega) (by unfold Outside; unfold Apart at bs; omega)
      rw [e1, Option.bind_some, inc32_ram (w1 _ _ oc), Option.bind_some, c1]
      obtain ⟨R', e', o', t', d', c', f'⟩ := gcmOperateLoop_ram hE cb ip k (R1.put ctr (inc32 (R.bytes ctr 16))) (d + 16) (s + 16) (n - 16) (by omega)
        (w1 _ _ oc) (w1 _ _ ob) (w1 _ _ (by ownof os)) (w1 _ _ (by ownof od)) (by apof cs) (by apof cd) (by apof bs) (by apof bd)
        (by
          rcases pl with ⟨h, h'⟩ | ⟨h, h'⟩
          · exact Or.inl ⟨h, by omega⟩
          · exact Or.inr ⟨h, by omega⟩)
      rw [bytes_put_same hi, bytes_put_apart (by rw [hi]; apof cs), s1] at d' c'
      have hd : (R.bytes s n).drop 16 = R.bytes (s + 16) (n - 16) := (bytes_drop rfl h16).symm
      have ht : (R.bytes s n).take 16 = R.bytes s 16 := (bytes_take rfl h16).symm
      rw [hd, ht]
      refine ⟨R', e', o'.trans o1, t'.trans t1, ?_, c', fun x h1 h2 h3 => ?_⟩
      · rw [bytes_split d h16, d']
        congr 1
        rw [← b1]
        refine bytes_ext fun i hi' => ?_
        rw [f' _ (by unfold Outside; omega) (by unfold Outside; unfold Apart at cd; omega) (by unfold Outside; unfold Apart at bd; omega),
          put_mem_out (by unfold Apart at cd; omega)]
      · rw [f' _ (by unfold Outside at *; omega) h2 h3, put_mem_out (by rw [hi]; exact h2), f1 _ (by unfold Outside at *; omega) h3]
    · rw [if_neg h16, if_neg h16]
      by_cases h0 : 0 < n
      · rw [if_pos h0, if_pos h0]
        have hx : (mxor (R.bytes s n) (E (R.bytes ctr 16))).length = n := by rw [Modes.mxor_eq, Modes.xorB_length, bytes_length, hEc]; omega
        have he : xorB (R.bytes s n) ((E (R.bytes ctr 16)).take n) = mxor (R.bytes s n) (E (R.bytes ctr 16)) := by
          rw [Modes.mxor_eq, xorB_take_right (by rw [bytes_length])]
        rw [cipher_one oc ob, Option.bind_some, xor2_eq (by ownof os) (by ownof ob) (by ownof od) (by apof bd), Option.bind_some,
          bytes_put_part le_rfl (by omega), Nat.sub_self, List.drop_zero, bytes_put_apart (by rw [hEc]; exact bs), he, inc32_ram (by ownof oc)]
        rw [bytes_put_apart (by rw [hx]; exact cd.flip), bytes_put_apart (by rw [hEc]; exact cb.flip)]
        refine ⟨_, rfl, rfl, rfl, ?_, bytes_put_same hi, fun x h1 h2 h3 => ?_⟩
        · rw [bytes_put_apart (by rw [hi]; exact cd), bytes_put_same hx]
        · rw [put_mem_out (by rw [hi]; exact h2), put_mem_out (by rw [hx]; exact h1), put_mem_out (by rw [hEc]; exact h3)]
      · rw [if_neg h0, if_neg h0]
        have : n = 0 := by omega
        subst this
        exact ⟨R, rfl, rfl, rfl, rfl, rfl, fun x _ _ _ => rfl⟩

end Verif.Ram
