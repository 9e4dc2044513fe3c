import Verif.Model.Ram.Cmac
import Verif.Lemmas.Ram.Hmac
import Verif.Lemmas.Ram.HashNeeds
import Verif.Props.Modes.Mac
/-! CMAC on memory. -/
namespace Verif.RamCmac
open Verif.Ram Verif.RamHash
open Verif.Modes (xorB mxor wr shl1 subkey Cmac CmacInv)

variable {R : Ram}

theorem xor128_eq {o a b : Nat} (ho : Apart o 16 a 16) (hb : Apart o 16 b 16) : ∀ (n i : Nat) (R : Ram), i + n = 16 →
    R.Owned o 16 → R.Owned a 16 → R.Owned b 16 →
    xor128 R o a b i n = some (R.put (o + i) (mxor (R.bytes (a + i) n) (R.bytes (b + i) n)))
  | 0, i, R, _, _, _, _ => by simp [xor128, mxor]
  | n + 1, i, R, h, h1, h2, h3 => by
    rw [xor128, load_eq (by ownof h2), Option.bind_some, load_eq (by ownof h3), Option.bind_some, store_eq (by ownof h1),
      Option.bind_some, xor128_eq ho hb n (i + 1) _ (by omega) (by ownof h1) (by ownof h2) (by ownof h3),
      bytes_put_apart (by rw [List.length_singleton]; apof ho), bytes_put_apart (by rw [List.length_singleton]; apof hb), bytes_cons,
      bytes_cons]
    show some _ = some (R.put (o + i) ([R.mem (a + i) ^^^ R.mem (b + i)] ++ _))
    rw [put_append]
    rfl

theorem xor128_all {o a b : Nat} (ho : Apart o 16 a 16) (hb : Apart o 16 b 16) (h1 : R.Owned o 16) (h2 : R.Owned a 16)
    (h3 : R.Owned b 16) : xor128 R o a b 0 16 = some (R.put o (mxor (R.bytes a 16) (R.bytes b 16))) :=
  xor128_eq ho hb 16 0 R rfl h1 h2 h3

theorem shift_eq {o k : Nat} (hk : o = k ∨ Apart o 16 k 16) : ∀ (n i : Nat) (R : Ram), i + n = 16 →
    R.Owned o 16 → R.Owned k 16 → shift R o k i n = some (R.put (o + i) (shl1 (R.bytes (k + i) n)))
  | 0, i, R, _, _, _ => by simp [shift, shl1]
  | 1, i, R, h, h1, h2 => by
    rw [shift, load_eq (by ownof h2), Option.bind_some, store_eq (by ownof h1), Option.bind_some, if_neg (by omega)]
    rfl
  | n + 2, i, R, h, h1, h2 => by
    have e1 : ∀ v, (R.put (o + i) [v]).mem (k + (i + 1)) = R.mem (k + (i + 1)) := fun v => put_mem_out (by
      unfold Apart at hk
      simp only [List.length_cons, List.length_nil]
      omega)
    have e2 : ∀ v, (R.put (o + i) [v]).mem (o + i) = v := fun v => put_mem_in (R := R) (a := o + i) (l := [v]) (i := 0) (by simp)
    have e3 : ∀ v, (R.put (o + i) [v]).bytes (k + (i + 1)) (n + 1) = R.bytes (k + (i + 1)) (n + 1) := fun v =>
      bytes_put_apart (by
        unfold Apart at hk ⊢
        simp only [List.length_cons, List.length_nil]
        omega)
    have key : ∀ v, shift (R.put (o + i) [v]) o k (i + 1) (n + 1) =
        some (R.put (o + i) (v :: shl1 (R.bytes (k + (i + 1)) (n + 1)))) := by
      intro v
      rw [shift_eq hk (n + 1) (i + 1) _ (by omega) (by ownof h1) (by ownof h2), e3]
      show _ = some (R.put (o + i) ([v] ++ _))
      rw [put_append]
      rfl
    rw [shift, load_eq (by ownof h2), Option.bind_some, store_eq (by ownof h1), Option.bind_some, if_pos (by omega),
      load_eq (by ownof h2), Option.bind_some, e1, bytes_cons (p := k + i), show k + i + 1 = k + (i + 1) from rfl]
    have hs : shl1 (R.mem (k + i) :: R.bytes (k + (i + 1)) (n + 1)) =
        (if R.mem (k + (i + 1)) &&& 0x80 ≠ 0 then R.mem (k + i) <<< 1 ||| 1 else R.mem (k + i) <<< 1) ::
          shl1 (R.bytes (k + (i + 1)) (n + 1)) := by
      rw [bytes_cons (p := k + (i + 1)), shl1]
    rw [hs]
    by_cases hm : R.mem (k + (i + 1)) &&& 0x80 ≠ 0
    · rw [if_pos hm, if_pos hm, load_eq (by ownof h1), Option.bind_some, store_eq (by ownof h1), Option.bind_some, e2,
        put_put_same (by simp), key]
    · rw [if_neg hm, if_neg hm, Option.bind_some, key]

theorem shl1_length : ∀ l : List Byte, (shl1 l).length = l.length
  | [] => rfl
  | [_] => rfl
  | _ :: c :: l => by rw [shl1, List.length_cons, shl1_length (c :: l)]; rfl

theorem subkey_length (l : List Byte) : (subkey l).length = l.length := by
  unfold subkey
  dsimp only
  split
  · rw [List.length_modify, shl1_length]
  · rw [shl1_length]

theorem sub_eq {o k : Nat} (hk : o = k ∨ Apart o 16 k 16) (h1 : R.Owned o 16) (h2 : R.Owned k 16) :
    sub R o k = some (R.put o (subkey (R.bytes k 16))) := by
  have hl : (shl1 (R.bytes k 16)).length = 16 := by rw [shl1_length, bytes_length]
  have hh : (R.bytes k 16).headD 0 = R.mem k := by rw [bytes_cons]; rfl
  unfold sub
  rw [load_eq (by ownof h2), Option.bind_some, shift_eq hk 16 0 R rfl h1 h2, Option.bind_some, Nat.add_zero, Nat.add_zero]
  unfold subkey
  dsimp only
  rw [hh]
  split
  · rw [load_eq (by ownof h1), Option.bind_some, store_eq (by ownof h1), put_mem_in (by omega), put_put_at _ (by omega),
      List.modify_eq_set_getElem? , List.getElem?_eq_getElem (by omega)]
    rfl
  · rfl

/-- The arrays of the context hold the values of the context of the list model. -/
structure Holds (A : Arrays) (R : Ram) (c : Cmac) : Prop where
  blk : R.bytes A.blk 16 = c.blk
  mac : R.bytes A.mac 16 = c.mac

/-- The arrays that `cry_cmac_update` changes. -/
def ranges (A : Arrays) : List (Nat × Nat) := [(A.blk, 16), (A.mac, 16), (A.block, 16)]

section
variable {E : List Byte → List Byte} (hE : ∀ b, b.length = 16 → (E b).length = 16) {A : Arrays}
include hE

theorem mxor_length {a b : List Byte} (ha : a.length = 16) (hb : b.length = 16) : (mxor a b).length = 16 := by
  unfold mxor; rw [List.length_zipWith, ha, hb]; rfl

theorem turn_eq {p : Nat} (ho : AllOwned R (ranges A)) (ha : AllApart (ranges A)) (hp : R.Owned p 16)
    (hbp : Apart A.block 16 p 16) :
    turn E A R p = some ((R.put A.block (mxor (R.bytes A.mac 16) (R.bytes p 16))).put A.mac
      (E (mxor (R.bytes A.mac 16) (R.bytes p 16)))) := by
  have h1 : R.Owned A.mac 16 := ho (A.mac, 16) (by simp [ranges])
  have h2 : R.Owned A.block 16 := ho (A.block, 16) (by simp [ranges])
  simp only [AllApart, ranges, List.pairwise_cons, List.mem_cons, forall_eq_or_imp] at ha
  have h3 := ha.2.1.1
  unfold turn
  rw [xor128_all (by apof h3) hbp h2 h1 hp, Option.bind_some, cipher_one (by ownof h2) (by ownof h1),
    bytes_put_same (mxor_length hE (bytes_length _ _) (bytes_length _ _))]

/-- One turn: the new value of `mac`; the rest is as it was. -/
theorem turn_holds {p : Nat} (ho : AllOwned R (ranges A)) (ha : AllApart (ranges A)) (hp : R.Owned p 16)
    (hbp : Apart A.block 16 p 16) {c : Cmac} (h : Holds A R c) :
    ∃ R', turn E A R p = some R' ∧ Holds A R' { c with mac := E (mxor c.mac (R.bytes p 16)) } ∧
      Wrote R R' [] [(A.mac, 16), (A.block, 16)] := by
  have hm : (mxor (R.bytes A.mac 16) (R.bytes p 16)).length = 16 := mxor_length hE (bytes_length _ _) (bytes_length _ _)
  refine ⟨_, turn_eq hE ho ha hp hbp, ⟨?_, ?_⟩, ?_⟩
  · simp only [AllApart, ranges, List.pairwise_cons, List.mem_cons, forall_eq_or_imp] at ha
    have h1 := ha.1.1
    have h2 := ha.1.2.1
    rw [bytes_put_apart (by rw [hE _ hm]; apof h1), bytes_put_apart (by rw [hm]; apof h2)]
    exact h.blk
  · rw [bytes_put_same (hE _ hm), h.mac]
  · exact wrote_put _ _ (hE _ hm) (by simp) (RamHash.wrote_put _ _ hm (by simp) (wrote_refl _ _))

theorem loop_holds (ha : AllApart (ranges A)) : ∀ (n p : Nat) (R : Ram) (c : Cmac), AllOwned R (ranges A) →
    R.Owned p (16 * n) → (∀ r ∈ ranges A, Apart r.1 r.2 p (16 * n)) → Holds A R c → ∀ d, R.bytes p (16 * n) = d.take (16 * n) →
    ∃ R', loop E A R p n = some R' ∧ Holds A R' { c with mac := Modes.cmacLoop E n c.mac d } ∧
      Wrote R R' [] [(A.mac, 16), (A.block, 16)]
  | 0, p, R, c, _, _, _, h, d, _ => ⟨R, rfl, h, wrote_refl _ _⟩
  | n + 1, p, R, c, ho, hp, hap, h, d, hd => by
    have hb := hap (A.block, 16) (by simp [ranges])
    have hm := hap (A.mac, 16) (by simp [ranges])
    obtain ⟨R1, e1, h1, w1⟩ := turn_holds hE ho ha (p := p) (by ownof hp) (by apof hb) h
    have hd1 : R.bytes p 16 = d.take 16 := by
      rw [bytes_take hd (by omega), List.take_take, min_eq_left (by omega)]
    have hd2 : R1.bytes (p + 16) (16 * n) = (d.drop 16).take (16 * n) := by
      rw [wrote_bytes w1 (by
        intro r hr
        simp only [List.mem_cons, List.not_mem_nil, or_false] at hr
        rcases hr with rfl | rfl
        · apof hm
        · apof hb)]
      have := bytes_drop hd (k := 16) (by omega)
      rw [show 16 * (n + 1) - 16 = 16 * n by omega] at this
      rw [this, List.drop_take, show 16 * (n + 1) - 16 = 16 * n by omega]
    obtain ⟨R2, e2, h2, w2⟩ := loop_holds ha n (p + 16) R1 _ (owned_of w1.own ho) (owned_same w1.own (by ownof hp))
      (fun r hr => by have := hap r hr; apof this) h1 (d.drop 16) hd2
    refine ⟨R2, ?_, ?_, wrote_trans w1 w2⟩
    · rw [loop, e1, Option.bind_some, e2]
    · rw [Modes.cmacLoop, ← hd1]; exact h2

theorem wr_bytes {a i : Nat} {l : List Byte} (h : i + l.length ≤ 16) :
    (R.put (a + i) l).bytes a 16 = wr (R.bytes a 16) i l := by
  have e : R.put (a + i) l = R.put a (wr (R.bytes a 16) i l) := by
    conv_lhs => rw [← put_bytes (R := R) a 16]
    rw [put_put_in (by rw [bytes_length]; exact h)]
    rfl
  rw [e, bytes_put_same (by rw [Modes.wr_length (by rw [bytes_length]; exact h), bytes_length])]

theorem rest_holds (ha : AllApart (ranges A)) {p len : Nat} {c : Cmac} (ho : AllOwned R (ranges A)) (hp : R.Owned p len)
    (hap : ∀ r ∈ ranges A, Apart r.1 r.2 p len) (h : Holds A R c) :
    ∃ R', rest E A R c.blklen p len = some (R', (Modes.cmacRest E c (R.bytes p len)).blklen) ∧
      Holds A R' (Modes.cmacRest E c (R.bytes p len)) ∧ Wrote R R' [] (ranges A) := by
  unfold rest Modes.cmacRest
  dsimp only
  rw [bytes_length]
  split
  · exact ⟨R, rfl, h, wrote_refl _ _⟩
  · next h0 =>
    generalize hn : (len + 15) / 16 - 1 = n
    have hlen : 16 * n + (if len % 16 = 0 then 16 else len % 16) = len := by split_ifs <;> omega
    generalize (if len % 16 = 0 then 16 else len % 16) = bl at *
    have hbl : bl ≤ 16 := by omega
    obtain ⟨R1, e1, h1, w1⟩ := loop_holds hE ha n p R c ho (by ownof hp)
      (fun r hr => by have := hap r hr; apof this) h (R.bytes p len) (bytes_take rfl (by omega))
    have hk := hap (A.blk, 16) (by simp [ranges])
    have hm := hap (A.mac, 16) (by simp [ranges])
    have hb := hap (A.block, 16) (by simp [ranges])
    have hob : R.Owned A.blk 16 := ho (A.blk, 16) (by simp [ranges])
    have hd : R1.bytes (p + 16 * n) bl = ((R.bytes p len).drop (16 * n)).take bl := by
      rw [← bytes_drop rfl (by omega), ← bytes_take rfl (by omega), wrote_bytes w1]
      intro r hr
      simp only [List.mem_cons, List.not_mem_nil, or_false] at hr
      rcases hr with rfl | rfl
      · apof hm
      · apof hb
    rw [e1, Option.bind_some, memcpy_eq (owned_same w1.own (by ownof hp)) (owned_same w1.own (by ownof hob)) (by apof hk), hd]
    have hl : (((R.bytes p len).drop (16 * n)).take bl).length = bl := by rw [← hd, bytes_length]
    refine ⟨_, rfl, ⟨?_, ?_⟩, ?_⟩
    · have := wr_bytes hE (R := R1) (a := A.blk) (i := 0) (l := ((R.bytes p len).drop (16 * n)).take bl) (by omega)
      rw [Nat.add_zero] at this
      rw [this, h1.blk]
    · simp only [AllApart, ranges, List.pairwise_cons, List.mem_cons, forall_eq_or_imp] at ha
      have h2 := ha.1.1
      rw [bytes_put_apart (by rw [hl]; apof h2)]
      exact h1.mac
    · exact wrote_put_in (b := A.blk) (n := 16) _ _ le_rfl (by omega) (by simp [ranges])
        (wrote_mono w1 (by simp [ranges]))

theorem update_holds (ha : AllApart (ranges A)) {p len : Nat} {c : Cmac} (hc : c.blklen ≤ 16) (ho : AllOwned R (ranges A))
    (hp : R.Owned p len) (hap : ∀ r ∈ ranges A, Apart r.1 r.2 p len) (h : Holds A R c) :
    ∃ R', update E A R c.blklen p len = some (R', (Modes.cmacUpdate E c (R.bytes p len)).blklen) ∧
      Holds A R' (Modes.cmacUpdate E c (R.bytes p len)) ∧ Wrote R R' [] (ranges A) := by
  unfold update Modes.cmacUpdate
  split
  · dsimp only
    rw [bytes_length, List.length_drop, bytes_length]
    generalize hn : min len (16 - c.blklen) = n
    have hk := hap (A.blk, 16) (by simp [ranges])
    have hob : R.Owned A.blk 16 := ho (A.blk, 16) (by simp [ranges])
    have ht : (R.bytes p len).take n = R.bytes p n := (bytes_take rfl (by omega)).symm
    rw [ht, RamHash.copyIn, if_pos (by omega), memcpy_eq (by ownof hp) (by ownof hob) (by apof hk), Option.bind_some]
    have hl : (R.bytes p n).length = n := bytes_length _ _
    have w1 : Wrote R (R.put (A.blk + c.blklen) (R.bytes p n)) [] [(A.blk, 16)] :=
      wrote_put_in (b := A.blk) (n := 16) _ _ (by omega) (by omega) (by simp) (wrote_refl _ _)
    have h1 : Holds A (R.put (A.blk + c.blklen) (R.bytes p n)) ⟨c.blklen + n, wr c.blk c.blklen (R.bytes p n), c.mac⟩ := by
      constructor
      · rw [wr_bytes hE (by omega), h.blk]
      · have ha := ha
        simp only [AllApart, ranges, List.pairwise_cons, List.mem_cons, forall_eq_or_imp] at ha
        have h2 := ha.1.1
        rw [bytes_put_apart (by rw [hl]; apof h2)]
        exact h.mac
    have hd : (R.bytes p len).drop n = (R.put (A.blk + c.blklen) (R.bytes p n)).bytes (p + n) (len - n) := by
      rw [← bytes_drop rfl (by omega), bytes_put_apart (by rw [hl]; apof hk)]
    have w1' := wrote_mono w1 (rs' := ranges A) (by simp [ranges])
    split
    · exact ⟨_, rfl, h1, w1'⟩
    · next hnl =>
      generalize R.put (A.blk + c.blklen) (R.bytes p n) = R1 at *
      have hb : Apart A.block 16 A.blk 16 := by
        simp only [AllApart, ranges, List.pairwise_cons, List.mem_cons, forall_eq_or_imp] at ha
        have h2 := ha.1.2.1
        apof h2
      obtain ⟨R2, e2, h2, w2⟩ := turn_holds hE (p := A.blk) (owned_of w1.own ho) ha (owned_same w1.own hob) hb h1
      rw [h1.blk] at h2
      have hpn : R1.bytes (p + n) (len - n) = R2.bytes (p + n) (len - n) := by
        rw [wrote_bytes w2]
        intro r hr
        have hm := hap (A.mac, 16) (by simp [ranges])
        have hb := hap (A.block, 16) (by simp [ranges])
        simp only [List.mem_cons, List.not_mem_nil, or_false] at hr
        rcases hr with rfl | rfl
        · apof hm
        · apof hb
      have ow2 : R2.own = R.own := w2.own.trans w1.own
      obtain ⟨R3, e3, h3, w3⟩ := rest_holds hE ha (p := p + n) (len := len - n) (owned_of ow2 ho)
        (owned_same ow2 (by ownof hp)) (fun r hr => by have := hap r hr; apof this) h2
      rw [e2, Option.bind_some, hd, hpn]
      exact ⟨R3, e3, h3, wrote_trans w1' (wrote_trans (wrote_mono w2 (by simp [ranges])) w3)⟩
  · exact rest_holds hE ha ho hp hap h

theorem inv_le {c : Cmac} {m : List Byte} (h : CmacInv E c m) : c.blklen ≤ 16 := by
  obtain ⟨⟨bs, r, -, -, h1, -, -, h2, -⟩, -⟩ := h
  omega

theorem updates_holds (ha : AllApart (ranges A)) : ∀ (calls : List (Nat × Nat)) (R : Ram) (c : Cmac) (m : List Byte),
    AllOwned R (ranges A) → (∀ q ∈ calls, R.Owned q.1 q.2 ∧ ∀ r ∈ ranges A, Apart r.1 r.2 q.1 q.2) → Holds A R c →
    CmacInv E c m → ∃ R' c', updates E A R c.blklen calls = some (R', c'.blklen) ∧ Holds A R' c' ∧
      CmacInv E c' (m ++ (calls.map fun q => R.bytes q.1 q.2).flatten) ∧ Wrote R R' [] (ranges A)
  | [], R, c, m, _, _, h, hi => ⟨R, c, rfl, h, by simpa using hi, wrote_refl _ _⟩
  | q :: qs, R, c, m, ho, hq, h, hi => by
    obtain ⟨q1, q2⟩ := hq q (by simp)
    obtain ⟨R1, e1, h1, w1⟩ := update_holds hE ha (inv_le hE hi) ho q1 q2 h
    obtain ⟨R2, c2, e2, h2, i2, w2⟩ := updates_holds ha qs R1 _ _ (owned_of w1.own ho)
      (fun x hx => ⟨owned_same w1.own (hq x (by simp [hx])).1, (hq x (by simp [hx])).2⟩) h1
      (Modes.cmacUpdate_inv hi (R.bytes q.1 q.2))
    have : (qs.map fun q => R1.bytes q.1 q.2) = qs.map fun q => R.bytes q.1 q.2 :=
      List.map_congr_left fun x hx => wrote_bytes w1 (hq x (by simp [hx])).2
    rw [this] at i2
    refine ⟨R2, c2, ?_, h2, ?_, wrote_trans w1 w2⟩
    · rw [updates, e1, Option.bind_some, e2]
    · rwa [List.map_cons, List.flatten_cons, ← List.append_assoc]

theorem zeros_eq {b : Nat} : ∀ (n i : Nat) (l : List Byte), l.length = 16 → i + n ≤ 16 → R.Owned b 16 →
    zeros (R.put b l) b i n = some (R.put b (wr l i (List.replicate n 0)))
  | 0, i, l, _, _, _ => by simp [zeros, wr]
  | n + 1, i, l, hl, h, ho => by
    rw [zeros, storeIn_eq hl (by omega) ho, Option.bind_some, zeros_eq n (i + 1) _ (by rw [List.length_set, hl]) (by omega) ho]
    exact congrArg (fun x => some (R.put b x)) (copyTo_cons (by omega) _ _)

theorem pad_eq {b i : Nat} (h : i < 16) (ho : R.Owned b 16) : RamCmac.pad R b i =
    some (R.put b ((R.bytes b 16).take i ++ [0x80] ++ List.replicate (16 - (i + 1)) 0)) := by
  unfold RamCmac.pad
  conv_lhs => rw [← put_bytes (R := R) b 16]
  rw [storeIn_eq (bytes_length _ _) h ho, Option.bind_some, zeros_eq hE _ _ _ (by rw [List.length_set, bytes_length]) (by omega) ho]
  have := copyTo_cons (l := R.bytes b 16) (i := i) (by rw [bytes_length]; exact h) 0x80 (List.replicate (16 - (i + 1)) 0)
  rw [show wr ((R.bytes b 16).set i 0x80) (i + 1) (List.replicate (16 - (i + 1)) 0) = _ from this]
  unfold Hash.Blk.copyTo
  rw [List.drop_eq_nil_of_le (by simp; omega), List.append_nil, List.append_assoc]
  rfl

theorem subkeys_eq (o1 : R.Owned A.k1 16) (o2 : R.Owned A.k2 16) (ob : R.Owned A.blank 16) (h12 : Apart A.k1 16 A.k2 16) :
    ∃ R', subkeys E A R = some R' ∧ R'.bytes A.k1 16 = subkey (E (List.replicate 16 0)) ∧
      R'.bytes A.k2 16 = subkey (subkey (E (List.replicate 16 0))) ∧
      Wrote R R' [] [(A.k1, 16), (A.k2, 16), (A.blank, 16)] := by
  have hz : (E (List.replicate 16 0)).length = 16 := hE _ (by simp)
  have hs1 : (subkey (E (List.replicate 16 0))).length = 16 := by rw [subkey_length, hz]
  have hs2 : (subkey (subkey (E (List.replicate 16 0)))).length = 16 := by rw [subkey_length, hs1]
  unfold subkeys
  rw [fill_eq _ ob, Option.bind_some, cipher_one (by ownof ob) (by ownof o1), bytes_put_same (by simp), Option.bind_some,
    sub_eq (.inl rfl) (by ownof o1) (by ownof o1), bytes_put_same hz, Option.bind_some,
    sub_eq (.inr (by apof h12)) (by ownof o2) (by ownof o1), bytes_put_same hs1]
  refine ⟨_, rfl, ?_, bytes_put_same hs2, ?_⟩
  · rw [bytes_put_apart (by rw [hs2]; apof h12), bytes_put_same hs1]
  · refine RamHash.wrote_put _ _ hs2 (by simp) (RamHash.wrote_put _ _ hs1 (by simp) (RamHash.wrote_put _ _ hz (by simp) ?_))
    exact RamHash.wrote_put (B := 16) _ _ (by simp) (by simp) (wrote_refl _ _)

/-- All the arrays. -/
def allRanges (A : Arrays) : List (Nat × Nat) :=
  [(A.blk, 16), (A.mac, 16), (A.block, 16), (A.k1, 16), (A.k2, 16), (A.last, 16), (A.blank, 16)]

theorem digest_eq (ho : AllOwned R (allRanges A)) (ha : AllApart (allRanges A)) {c : Cmac} (h : Holds A R c)
    (hc : c.blklen ≤ 16) {out : Nat} (hout : R.Owned out 16) (hom : Apart out 16 A.mac 16) :
    ∃ Q, digest E A R c.blklen out = some (Q.put out (Modes.cmacDigest E c)) ∧ (Modes.cmacDigest E c).length = 16 ∧
      Wrote R Q [] (allRanges A) ∧ Q.bytes A.mac 16 = Modes.cmacDigest E c := by
  have ok : R.Owned A.blk 16 := ho (A.blk, 16) (by simp [allRanges])
  have om : R.Owned A.mac 16 := ho (A.mac, 16) (by simp [allRanges])
  have o1 : R.Owned A.k1 16 := ho (A.k1, 16) (by simp [allRanges])
  have o2 : R.Owned A.k2 16 := ho (A.k2, 16) (by simp [allRanges])
  have ol : R.Owned A.last 16 := ho (A.last, 16) (by simp [allRanges])
  have ob : R.Owned A.blank 16 := ho (A.blank, 16) (by simp [allRanges])
  simp only [AllApart, allRanges, List.pairwise_cons, List.mem_cons, forall_eq_or_imp, List.not_mem_nil, false_imp_iff,
    implies_true, and_true, List.Pairwise.nil] at ha
  obtain ⟨⟨akm, -, ak1, ak2, akl, akb⟩, ⟨-, am1, am2, aml, amb⟩, -, ⟨a12, a1l, a1b⟩, ⟨a2l, a2b⟩, alb⟩ := ha
  obtain ⟨R1, e1, hk1, hk2, w1⟩ := subkeys_eq hE o1 o2 ob a12
  have h1k : R1.bytes A.blk 16 = c.blk := by
    rw [wrote_bytes w1, h.blk]
    intro r hr
    simp only [List.mem_cons, List.not_mem_nil, or_false] at hr
    rcases hr with rfl | rfl | rfl
    · apof ak1
    · apof ak2
    · apof akb
  have h1m : R1.bytes A.mac 16 = c.mac := by
    rw [wrote_bytes w1, h.mac]
    intro r hr
    simp only [List.mem_cons, List.not_mem_nil, or_false] at hr
    rcases hr with rfl | rfl | rfl
    · apof am1
    · apof am2
    · apof amb
  have hcm : c.mac.length = 16 := by rw [← h.mac, bytes_length]
  have hcb : c.blk.length = 16 := by rw [← h.blk, bytes_length]
  have w1' := wrote_mono w1 (rs' := allRanges A) (by simp [allRanges])
  -- the last block
  obtain ⟨R2, L, e2, hL, hl2, hm2, w2, hdef⟩ : ∃ R2 L,
      (if c.blklen = 16 then xor128 R1 A.last A.blk A.k1 0 16
        else (RamCmac.pad R1 A.blk c.blklen).bind fun R => xor128 R A.last A.blk A.k2 0 16) = some R2 ∧ L.length = 16 ∧
      R2.bytes A.last 16 = L ∧ R2.bytes A.mac 16 = c.mac ∧ Wrote R R2 [] (allRanges A) ∧
      Modes.cmacDigest E c = E (mxor c.mac L) := by
    by_cases h16 : c.blklen = 16
    · have hlen : (mxor (R1.bytes A.blk 16) (R1.bytes A.k1 16)).length = 16 := mxor_length hE (bytes_length _ _) (bytes_length _ _)
      rw [if_pos h16, xor128_all (by apof akl) (by apof a1l) (owned_same w1.own ol) (owned_same w1.own ok) (owned_same w1.own o1)]
      refine ⟨_, _, rfl, hlen, bytes_put_same hlen, ?_, RamHash.wrote_put _ _ hlen (by simp [allRanges]) w1', ?_⟩
      · rw [bytes_put_apart (by rw [hlen]; apof aml), h1m]
      · unfold Modes.cmacDigest
        dsimp only
        rw [if_pos h16, h1k, hk1]
    · have hpl : ((R1.bytes A.blk 16).take c.blklen ++ [(0x80 : Byte)] ++ List.replicate (16 - (c.blklen + 1)) (0 : Byte)).length = 16 := by
        simp; omega
      rw [if_neg h16, pad_eq hE (by omega) (owned_same w1.own ok), Option.bind_some,
        xor128_all (by apof akl) (by apof a2l) (owned_same (Q := R1.put _ _) w1.own ol) (owned_same (Q := R1.put _ _) w1.own ok)
          (owned_same (Q := R1.put _ _) w1.own o2), bytes_put_same hpl, bytes_put_apart (by rw [hpl]; apof ak2), hk2]
      have hlen : (mxor ((R1.bytes A.blk 16).take c.blklen ++ [(0x80 : Byte)] ++ List.replicate (16 - (c.blklen + 1)) (0 : Byte))
          (subkey (subkey (E (List.replicate 16 0))))).length = 16 := mxor_length hE hpl (by rw [← hk2, bytes_length])
      refine ⟨_, _, rfl, hlen, bytes_put_same hlen, ?_, RamHash.wrote_put _ _ hlen (by simp [allRanges])
        (RamHash.wrote_put _ _ hpl (by simp [allRanges]) w1'), ?_⟩
      · rw [bytes_put_apart (by rw [hlen]; apof aml), bytes_put_apart (by rw [hpl]; apof akm), h1m]
      · unfold Modes.cmacDigest
        dsimp only
        rw [if_neg h16, h1k]
  have hx : (mxor c.mac L).length = 16 := mxor_length hE hcm hL
  have ow := w2.own
  unfold digest
  rw [e1, Option.bind_some, e2, Option.bind_some, xor128_all akm (by apof akl) (owned_same ow ok) (owned_same ow om) (owned_same ow ol),
    hm2, hl2, Option.bind_some, cipher_one (owned_same (Q := R2.put _ _) ow ok) (owned_same (Q := R2.put _ _) ow om),
    bytes_put_same hx, Option.bind_some,
    memcpy_eq (owned_same (Q := (R2.put _ _).put _ _) ow om) (owned_same (Q := (R2.put _ _).put _ _) ow hout) hom,
    bytes_put_same (hE _ hx), hdef]
  exact ⟨_, rfl, hE _ hx, RamHash.wrote_put _ _ (hE _ hx) (by simp [allRanges])
    (RamHash.wrote_put _ _ hx (by simp [allRanges]) w2), bytes_put_same (hE _ hx)⟩

/-- The whole computation. -/
theorem cmac_eq (ho : AllOwned R (allRanges A)) (ha : AllApart (allRanges A)) (calls : List (Nat × Nat))
    (hq : ∀ q ∈ calls, R.Owned q.1 q.2 ∧ ∀ r ∈ ranges A, Apart r.1 r.2 q.1 q.2) {out : Nat} (hout : R.Owned out 16)
    (hom : Apart out 16 A.mac 16) :
    ∃ R', cmac E A R calls out = some R' ∧
      Wrote R R' [(out, Modes.cmacS E (calls.map fun q => R.bytes q.1 q.2).flatten),
        (A.mac, Modes.cmacS E (calls.map fun q => R.bytes q.1 q.2).flatten)] (allRanges A) := by
  have ok : R.Owned A.blk 16 := ho (A.blk, 16) (by simp [allRanges])
  have om : R.Owned A.mac 16 := ho (A.mac, 16) (by simp [allRanges])
  have ha' : AllApart (ranges A) := by
    refine List.Pairwise.sublist ?_ ha
    show List.Sublist [(A.blk, 16), (A.mac, 16), (A.block, 16)] ([(A.blk, 16), (A.mac, 16), (A.block, 16)] ++ _)
    exact List.sublist_append_left _ _
  have akm : Apart A.blk 16 A.mac 16 := by
    simp only [AllApart, ranges, List.pairwise_cons, List.mem_cons, forall_eq_or_imp] at ha'
    exact ha'.1.1
  have ho' : AllOwned R (ranges A) := fun p hp => ho p (by
    simp only [ranges, allRanges, List.mem_cons, List.not_mem_nil, or_false] at hp ⊢; tauto)
  have w0 : Wrote R ((R.put A.blk (List.replicate 16 0)).put A.mac (List.replicate 16 0)) [] (ranges A) :=
    RamHash.wrote_put (B := 16) _ _ (by simp) (by simp [ranges])
      (RamHash.wrote_put (B := 16) _ _ (by simp) (by simp [ranges]) (wrote_refl _ _))
  have h0 : Holds A ((R.put A.blk (List.replicate 16 0)).put A.mac (List.replicate 16 0)) Modes.cmacInit := by
    constructor
    · rw [bytes_put_apart (by rw [List.length_replicate]; apof akm), bytes_put_same (by simp)]; rfl
    · rw [bytes_put_same (by simp)]; rfl
  have e0 : init A R = some ((R.put A.blk (List.replicate 16 0)).put A.mac (List.replicate 16 0), 0) := by
    unfold init
    rw [fill_eq _ ok, Option.bind_some, fill_eq _ (by ownof om)]
    rfl
  generalize (R.put A.blk (List.replicate 16 0)).put A.mac (List.replicate 16 0) = R1 at *
  obtain ⟨R2, c, e2, h2, i2, w2⟩ := updates_holds hE ha' calls R1 _ [] (owned_of w0.own ho')
    (fun q hq' => ⟨owned_same w0.own (hq q hq').1, (hq q hq').2⟩) h0 Modes.cmacInit_inv
  have hb : (calls.map fun q => R1.bytes q.1 q.2) = calls.map fun q => R.bytes q.1 q.2 :=
    List.map_congr_left fun x hx => wrote_bytes w0 (hq x hx).2
  rw [hb, List.nil_append] at i2
  have w02 := wrote_mono (wrote_trans w0 w2) (rs' := allRanges A) (by
    intro r hr
    simp only [ranges, allRanges, List.mem_cons, List.not_mem_nil, or_false] at hr ⊢; tauto)
  obtain ⟨Q, e3, hl, w3, hm⟩ := digest_eq hE (owned_of w02.own ho) ha h2 (inv_le hE i2) (owned_same w02.own hout) hom
  have hs : Modes.cmacDigest E c = Modes.cmacS E (calls.map fun q => R.bytes q.1 q.2).flatten := Modes.cmacDigest_spec hE i2
  rw [hs] at e3 hl hm
  have w := wrote_trans w02 w3
  refine ⟨Q.put out _, by unfold cmac; rw [e0, Option.bind_some]; erw [e2]; rw [Option.bind_some, e3], w.own, w.tmp, ?_, ?_⟩
  · intro x hx
    simp only [List.mem_cons, List.not_mem_nil, or_false] at hx
    rcases hx with rfl | rfl
    · exact bytes_put_same rfl
    · dsimp only
      rw [hl, bytes_put_apart (by rw [hl]; exact hom), hm]
  · intro x h1 h2
    have := h1 _ (List.mem_cons_self ..)
    rw [put_mem_out (by unfold Outside at this; exact this)]
    exact w.else_ x (by simp) h2

end

/-! Every byte of the message is read. -/

theorem load_some {p : Nat} {v : Byte} (h : load R p = some v) : R.Owned p 1 := by
  unfold load at h
  split at h
  · next ho => intro i hi; rw [show i = 0 by omega]; exact ho
  · exact absurd h (by simp)

theorem xor128_needs {o a b : Nat} : ∀ (n i : Nat) (R R' : Ram), xor128 R o a b i n = some R' →
    R'.own = R.own ∧ R.Owned (b + i) n
  | 0, i, R, R', h => by cases h; exact ⟨rfl, fun j hj => absurd hj (by omega)⟩
  | n + 1, i, R, R', h => by
    rw [xor128] at h
    obtain ⟨x, -, h⟩ := Option.bind_eq_some_iff.1 h
    obtain ⟨y, hy, h⟩ := Option.bind_eq_some_iff.1 h
    obtain ⟨R1, h1, h⟩ := Option.bind_eq_some_iff.1 h
    obtain ⟨e, ho⟩ := xor128_needs n (i + 1) R1 R' h
    have e1 := store_own h1
    refine ⟨e.trans e1, ?_⟩
    rw [Nat.add_comm n 1]
    exact owned_join (load_some hy) (owned_same (Q := R) e1.symm ho)

theorem cipher_own {F : List Byte → List Byte} {c d s : Nat} {R' : Ram} (h : cipher F c 1 R d s = some R') : R'.own = R.own := by
  rw [cipher] at h
  split at h
  · cases h; rfl
  · exact absurd h (by simp)

theorem turn_needs {E : List Byte → List Byte} {A : Arrays} {p : Nat} {R' : Ram} (h : turn E A R p = some R') :
    R'.own = R.own ∧ R.Owned p 16 := by
  unfold turn at h
  obtain ⟨R1, h1, h⟩ := Option.bind_eq_some_iff.1 h
  obtain ⟨e1, ho⟩ := xor128_needs _ _ _ _ h1
  exact ⟨(cipher_own h).trans e1, ho⟩

theorem loop_needs {E : List Byte → List Byte} {A : Arrays} : ∀ (n p : Nat) (R R' : Ram), loop E A R p n = some R' →
    R'.own = R.own ∧ R.Owned p (16 * n)
  | 0, p, R, R', h => by cases h; exact ⟨rfl, fun j hj => absurd hj (by omega)⟩
  | n + 1, p, R, R', h => by
    rw [loop] at h
    obtain ⟨R1, h1, h⟩ := Option.bind_eq_some_iff.1 h
    obtain ⟨e1, o1⟩ := turn_needs h1
    obtain ⟨e2, o2⟩ := loop_needs n (p + 16) R1 R' h
    refine ⟨e2.trans e1, ?_⟩
    rw [show 16 * (n + 1) = 16 + 16 * n by omega]
    exact owned_join o1 (owned_same (Q := R) e1.symm o2)

theorem memcpy_needs {d s n : Nat} {R' : Ram} (h : memcpy R d s n = some R') : R'.own = R.own ∧ R.Owned s n := by
  unfold memcpy at h
  split at h
  · next hc => cases h; exact ⟨rfl, hc.1⟩
  · exact absurd h (by simp)

theorem rest_needs {E : List Byte → List Byte} {A : Arrays} {bl p len : Nat} {r : Ram × Nat}
    (h : rest E A R bl p len = some r) : R.Owned p len := by
  unfold rest at h
  dsimp only at h
  split at h
  · exact fun j hj => absurd hj (by omega)
  · obtain ⟨R1, h1, h⟩ := Option.bind_eq_some_iff.1 h
    obtain ⟨R2, h2, -⟩ := Option.map_eq_some_iff.1 h
    obtain ⟨e1, o1⟩ := loop_needs _ _ _ _ h1
    have := owned_join o1 (owned_same (Q := R) e1.symm (memcpy_needs h2).2)
    rwa [show 16 * ((len + 15) / 16 - 1) + (if len % 16 = 0 then 16 else len % 16) = len by split_ifs <;> omega] at this

theorem update_needs {E : List Byte → List Byte} {A : Arrays} {bl p len : Nat} {r : Ram × Nat}
    (h : update E A R bl p len = some r) : R.Owned p len := by
  unfold update at h
  split at h
  · dsimp only at h
    obtain ⟨R1, h1, h⟩ := Option.bind_eq_some_iff.1 h
    generalize hn : min len (16 - bl) = n at *
    unfold copyIn at h1
    split at h1
    · obtain ⟨e1, o1⟩ := memcpy_needs h1
      split at h
      · rwa [show len = n by omega]
      · obtain ⟨R2, h2, h⟩ := Option.bind_eq_some_iff.1 h
        have o2 := rest_needs h
        have := owned_join o1 (owned_same (Q := R) ((turn_needs h2).1.trans e1).symm o2)
        rwa [show n + (len - n) = len by omega] at this
    · exact absurd h1 (by simp)
  · exact rest_needs h

end Verif.RamCmac
