import Verif.Lemmas.Modes.Gcm
import Verif.Model.Modes.Mac
import Verif.Spec.Mac
/-! CMAC and HMAC. -/
namespace Verif.Modes

theorem beVal_foldl (l : List Byte) (a : Nat) :
    List.foldl (fun a (b : Byte) => 256 * a + b.toNat) a l = a * 256 ^ l.length + beVal l := by
  induction l generalizing a with
  | nil => simp [beVal]
  | cons b l ih =>
    have h2 : beVal (b :: l) = (256 * 0 + b.toNat) * 256 ^ l.length + beVal l := ih _
    rw [List.foldl_cons, ih, h2, List.length_cons, pow_succ]
    ring

theorem beVal_cons (b : Byte) (l : List Byte) : beVal (b :: l) = b.toNat * 256 ^ l.length + beVal l := by
  have h2 : beVal (b :: l) = (256 * 0 + b.toNat) * 256 ^ l.length + beVal l := beVal_foldl l _
  rw [h2, Nat.mul_zero, Nat.zero_add]

theorem encodeBE_cons : ∀ (c n : Nat), encodeBE (c + 1) n = BitVec.ofNat 8 (n / 256 ^ c) :: encodeBE c n
  | 0, n => by simp [encodeBE]
  | c + 1, n => by
    rw [encodeBE, encodeBE_cons c, encodeBE, List.cons_append, Nat.div_div_eq_div_mul,
      show 256 * 256 ^ c = 256 ^ (c + 1) from Nat.pow_succ'.symm]

theorem shl1_spec : ∀ l : List Byte, shl1 l = encodeBE l.length (2 * beVal l)
  | [] => rfl
  | [b] => by
    simp only [shl1, encodeBE, beVal, List.foldl_cons, List.foldl_nil, List.length_singleton, List.nil_append]
    congr 1
    apply BitVec.eq_of_toNat_eq
    rw [BitVec.toNat_shiftLeft, BitVec.toNat_ofNat, Nat.shiftLeft_eq]
    congr 1; omega
  | b :: c :: l => by
    rw [shl1, shl1_spec (c :: l), show (b :: c :: l).length = (c :: l).length + 1 from rfl, encodeBE_cons (c :: l).length,
      beVal_cons b]
    have hlt := beVal_lt (c :: l)
    generalize hL : (c :: l).length = L at *
    generalize hv : beVal (c :: l) = v at *
    have hP : 0 < 256 ^ L := Nat.pow_pos (by omega)
    have hdiv : 2 * (b.toNat * 256 ^ L + v) / 256 ^ L = 2 * b.toNat + 2 * v / 256 ^ L := by
      rw [Nat.mul_add, ← Nat.mul_assoc, Nat.add_comm, Nat.add_mul_div_right _ _ hP, Nat.add_comm]
    have hmod : encodeBE L (2 * (b.toNat * 256 ^ L + v)) = encodeBE L (2 * v) := by
      rw [← encodeBE_mod, Nat.mul_add, ← Nat.mul_assoc, Nat.mul_add_mod_self_right, encodeBE_mod]
    rw [hdiv, hmod]
    congr 1
    -- the carry is the top bit of `c`
    have hcv : v = c.toNat * 256 ^ l.length + beVal l := by rw [← hv, beVal_cons]
    have hl := beVal_lt l
    have hL' : 256 ^ L = 256 * 256 ^ l.length := by
      rw [← hL, List.length_cons, Nat.pow_succ']
    have hq : 2 * v / 256 ^ L = if 128 ≤ c.toNat then 1 else 0 := by
      rw [hL']
      generalize 256 ^ l.length = P at *
      split_ifs with h
      · apply Nat.div_eq_of_lt_le
        · have : 128 * P ≤ c.toNat * P := Nat.mul_le_mul_right _ h
          omega
        · omega
      · apply Nat.div_eq_of_lt
        have : (c.toNat + 1) * P ≤ 128 * P := Nat.mul_le_mul_right _ (by omega)
        rw [Nat.succ_mul] at this
        omega
    rw [hq]
    have hc : (c &&& 0x80 ≠ 0) ↔ 128 ≤ c.toNat := by clear * -; revert c; decide +kernel
    have hb1 : b <<< 1 ||| 1 = BitVec.ofNat 8 (2 * b.toNat + 1) := by clear * -; revert b; decide +kernel
    have hb0 : b <<< 1 = BitVec.ofNat 8 (2 * b.toNat + 0) := by clear * -; revert b; decide +kernel
    by_cases h : 128 ≤ c.toNat
    · rw [if_pos (hc.2 h), if_pos h, hb1]
    · rw [if_neg (mt hc.1 h), if_neg h, hb0]

theorem modify_last_xor (l : List Byte) (h : l.length = 16) :
    l.modify 15 (· ^^^ 0x87) = xorB l (List.replicate 15 0 ++ [0x87]) := by
  match l, h with
  | [a0, a1, a2, a3, b0, b1, b2, b3, c0, c1, c2, c3, d0, d1, d2, d3], _ =>
    simp [xorB, List.modify, List.modifyTailIdx, List.modifyTailIdx.go, List.replicate]

theorem subkey_spec (k : List Byte) (hk : k.length = 16) : subkey k = cmacSub k := by
  unfold subkey cmacSub
  dsimp only
  rw [shl1_spec, hk]
  obtain ⟨b, l, rfl⟩ : ∃ b l, k = b :: l := by
    match k, hk with
    | b :: l, _ => exact ⟨b, l, rfl⟩
  have hl : l.length = 15 := by simpa using hk
  have hlt := beVal_lt l
  have hb : (b &&& 0x80 ≠ 0) ↔ 128 ≤ b.toNat := by clear * -; revert b; decide +kernel
  have hiff : ((b :: l).headD 0 &&& 0x80 ≠ 0) ↔ 2 ^ 127 ≤ beVal (b :: l) := by
    rw [List.headD_cons, hb, beVal_cons]
    rw [hl] at hlt ⊢
    rw [show 2 ^ 127 = 128 * 256 ^ 15 by norm_num]
    generalize 256 ^ 15 = P at *
    constructor
    · intro h
      have := Nat.mul_le_mul_right P h
      omega
    · intro h
      by_contra h'
      have : (b.toNat + 1) * P ≤ 128 * P := Nat.mul_le_mul_right _ (by omega)
      rw [Nat.succ_mul] at this
      omega
  by_cases h : 2 ^ 127 ≤ beVal (b :: l)
  · rw [if_pos (hiff.2 h), if_pos h, modify_last_xor _ (encodeBE_length _ _)]
  · rw [if_neg (mt hiff.1 h), if_neg h]

/-- The context `c` has consumed the message `m`. -/
structure CmacInv (E : List Byte → List Byte) (c : Cmac) (m : List Byte) : Prop where
  ex : ∃ bs r, Blocks 16 bs ∧ m = bs.flatten ++ r ∧ r.length ≤ 16 ∧ (r = [] → bs = []) ∧
    c.blk.take c.blklen = r ∧ c.blklen = r.length ∧
    c.mac = bs.foldl (fun x b => E (xorB x b)) (List.replicate 16 0)
  len : c.blk.length = 16

theorem cmacInit_inv {E : List Byte → List Byte} : CmacInv E cmacInit [] :=
  ⟨⟨[], [], by intro b hb; simp at hb, rfl, by simp, fun _ => rfl, rfl, rfl, rfl⟩, rfl⟩

theorem cmacLoop_spec {E : List Byte → List Byte} : ∀ (bs : List (List Byte)) (rest mac : List Byte),
    Blocks 16 bs → cmacLoop E bs.length mac (bs.flatten ++ rest) =
      bs.foldl (fun x b => E (xorB x b)) mac
  | [], _, _, _ => rfl
  | b :: bs, rest, mac, h => by
    obtain ⟨h1, h2⟩ := h.cons
    rw [List.length_cons, cmacLoop, List.flatten_cons, List.append_assoc, List.take_left' h1,
      List.drop_left' h1, cmacLoop_spec bs rest _ h2]
    rfl

/-- A non-empty string is whole blocks followed by a last block of 1 to 16 bytes. -/
theorem split_last {d : List Byte} (hd : d ≠ []) : ∃ bs r, Blocks 16 bs ∧ d = bs.flatten ++ r ∧
    0 < r.length ∧ r.length ≤ 16 ∧ bs.length = (d.length - 1) / 16 := by
  have hpos := List.length_pos_iff.2 hd
  have h1 : 16 ∣ (d.take (16 * ((d.length - 1) / 16))).length := by
    rw [List.length_take, Nat.min_eq_left (by omega)]; exact ⟨_, rfl⟩
  obtain ⟨bs, hb, hf⟩ := exists_blocks h1
  refine ⟨bs, d.drop (16 * ((d.length - 1) / 16)), hb, by rw [hf, List.take_append_drop], ?_, ?_, ?_⟩
  · rw [List.length_drop]; omega
  · rw [List.length_drop]; omega
  · have := congrArg List.length hf
    rw [hb.length, List.length_take] at this
    omega

theorem cmacRest_inv {E : List Byte → List Byte} (c : Cmac) (bs : List (List Byte)) (hb : Blocks 16 bs)
    (hblk : c.blk.length = 16)
    (hmac : c.mac = bs.foldl (fun x b => E (xorB x b)) (List.replicate 16 0)) {d : List Byte}
    (hd : d ≠ []) : CmacInv E (cmacRest E c d) (bs.flatten ++ d) := by
  obtain ⟨ds, r, hds, he, hr0, hr16, hn⟩ := split_last hd
  have hlen : d.length = 16 * ds.length + r.length := by
    rw [he, List.length_append, hds.length]; omega
  unfold cmacRest
  dsimp only
  rw [if_neg (by omega)]
  have hn' : (d.length + 15) / 16 - 1 = ds.length := by omega
  have hbl : (if d.length % 16 = 0 then 16 else d.length % 16) = r.length := by
    split_ifs <;> omega
  have hdrop : (d.drop (16 * ds.length)).take r.length = r := by
    rw [he, List.drop_left' (by rw [hds.length]; omega), List.take_length]
  rw [hn', hbl, hdrop]
  have hwr : wr c.blk 0 r = r ++ c.blk.drop r.length := wr_zero
  refine ⟨⟨bs ++ ds, r, hb.append hds, by rw [he]; simp, hr16, ?_, ?_, rfl, ?_⟩, ?_⟩
  · rintro rfl; simp at hr0
  · dsimp only
    rw [hwr, List.take_left]
  · dsimp only
    rw [List.foldl_append, ← hmac, he]
    exact cmacLoop_spec ds r c.mac hds
  · dsimp only
    rw [hwr, List.length_append, List.length_drop]; omega

theorem cmacUpdate_inv {E : List Byte → List Byte} {c : Cmac} {m : List Byte} (h : CmacInv E c m)
    (d : List Byte) : CmacInv E (cmacUpdate E c d) (m ++ d) := by
  obtain ⟨⟨bs, r, hb, hm, hr16, hre, hblk, hbl, hmac⟩, hlen⟩ := h
  unfold cmacUpdate
  by_cases h0 : c.blklen > 0
  · rw [if_pos h0]
    dsimp only
    generalize hn : min d.length (16 - c.blklen) = n
    have hwr : wr c.blk c.blklen (d.take n) = r ++ d.take n ++ c.blk.drop (c.blklen + (d.take n).length) := by
      unfold wr; rw [hblk]
    have htl : (d.take n).length = n := by rw [List.length_take]; omega
    rw [htl] at hwr
    have hwl : (wr c.blk c.blklen (d.take n)).length = 16 := by
      rw [hwr, List.length_append, List.length_append, List.length_drop, htl]; omega
    by_cases hret : c.blklen + n < 16 ∨ (d.drop n).length = 0
    · rw [if_pos hret]
      have hdn : d.take n = d := by
        apply List.take_of_length_le
        rw [List.length_drop] at hret
        omega
      refine ⟨⟨bs, r ++ d, hb, by rw [hm, List.append_assoc], ?_, ?_, ?_, ?_, hmac⟩, hwl⟩
      · rw [List.length_append]
        have : d.length = n := by rw [← htl, hdn]
        omega
      · intro he; exact hre (List.append_eq_nil_iff.1 he).1
      · dsimp only
        rw [hwr, List.take_left' (by rw [List.length_append, htl]; omega), hdn]
      · dsimp only
        have : d.length = n := by rw [← htl, hdn]
        rw [List.length_append]; omega
    · rw [if_neg hret]
      rw [not_or] at hret
      have hdl := hret.2
      rw [List.length_drop] at hdl
      have hn16 : c.blklen + n = 16 := by omega
      have hblk2 : wr c.blk c.blklen (d.take n) = r ++ d.take n := by
        rw [hwr, hn16, List.drop_of_length_le (by omega), List.append_nil]
      have hdrop : d.drop n ≠ [] := by
        intro e; exact hret.2 (by rw [e]; rfl)
      have := cmacRest_inv (E := E) ⟨c.blklen + n, wr c.blk c.blklen (d.take n),
          E (mxor c.mac (wr c.blk c.blklen (d.take n)))⟩ (bs ++ [r ++ d.take n])
        (hb.append (Blocks.mk (by rw [List.length_append, htl]; omega) (by intro b hb; simp at hb)))
        hwl (by dsimp only; rw [List.foldl_append, ← hmac, hblk2]; rfl) hdrop
      have he : (bs ++ [r ++ d.take n]).flatten ++ d.drop n = m ++ d := by
        rw [hm]; simp
      rwa [he] at this
  · rw [if_neg h0]
    have hr : r = [] := List.length_eq_zero_iff.1 (by omega)
    have hbs := hre hr
    subst hr hbs
    by_cases hd : d = []
    · subst hd
      have : cmacRest E c [] = c := rfl
      rw [this, hm]
      exact ⟨⟨[], [], hb, rfl, by simp, fun _ => rfl, hblk, hbl, hmac⟩, hlen⟩
    · have := cmacRest_inv (E := E) c [] (by intro b hb; simp at hb) hlen hmac hd
      rw [hm]
      exact this

theorem cmacDigest_spec {E : List Byte → List Byte} (hE : ∀ b, b.length = 16 → (E b).length = 16)
    {c : Cmac} {m : List Byte} (h : CmacInv E c m) : cmacDigest E c = cmacS E m := by
  obtain ⟨⟨bs, r, hb, hm, hr16, hre, hblk, hbl, hmac⟩, hlen⟩ := h
  have hlm : m.length = 16 * bs.length + r.length := by
    rw [hm, List.length_append, hb.length]; omega
  have hn : 16 * ((m.length - 1) / 16) = bs.flatten.length := by
    rw [hb.length]
    by_cases hr : r = []
    · rw [hre hr, hr] at hlm
      rw [hlm, hre hr]; rfl
    · have := List.length_pos_iff.2 hr
      omega
  have hz : (E (List.replicate 16 0)).length = 16 := hE _ rfl
  have h1 := subkey_spec _ hz
  have hk1 : (subkey (E (List.replicate 16 0))).length = 16 := by
    rw [h1]; unfold cmacSub; dsimp only
    split_ifs
    · rw [xorB_length, encodeBE_length]; rfl
    · exact encodeBE_length _ _
  have h2 := subkey_spec _ hk1
  unfold cmacDigest cmacS
  dsimp only
  rw [h2, h1, hn, hm, List.drop_left, List.take_left]
  have hcut := cut16_flatten [] hb
  rw [List.append_nil, cut16_nil, List.append_nil] at hcut
  rw [hcut, ← hmac, hbl]
  by_cases h16 : r.length = 16
  · have : c.blk = r := by
      rw [← hblk, List.take_of_length_le (by omega)]
    rw [if_pos h16, if_pos h16, this]; rfl
  · rw [if_neg h16, if_neg h16]
    rw [hbl] at hblk
    rw [hblk, show 16 - (r.length + 1) = 15 - r.length by omega]; rfl

/-! ### HMAC -/

/-- `Rep s m`: the context `s` has consumed `m`; a streaming implementation of `H` for messages of at
most `N` bytes. -/
structure Streams {σ : Type} (h : HashItf σ) (H : List Byte → List Byte) (N : Nat)
    (Rep : σ → List Byte → Prop) : Prop where
  init : Rep h.init []
  update : ∀ s m d, Rep s m → (m ++ d).length ≤ N → Rep (h.update s d) (m ++ d)
  digest : ∀ s m, Rep s m → m.length ≤ N → h.digest s = H m

theorem hmacPad_spec (x : Byte) {k : List Byte} (hk : k.length ≤ 64) :
    hmacPad x k = xorB (k ++ List.replicate (64 - k.length) 0) (List.replicate 64 x) := by
  unfold hmacPad
  rw [mxor_eq, List.take_replicate, List.drop_replicate, Nat.min_eq_left hk]
  have : List.replicate 64 x = List.replicate k.length x ++ List.replicate (64 - k.length) x := by
    rw [List.replicate_append_replicate]; congr 1; omega
  conv_rhs => rw [this]
  rw [xorB_append _ _ (by simp), xorB_comm]
  congr 1
  generalize 64 - k.length = n
  induction n with
  | zero => rfl
  | succ n ih =>
    simp only [List.replicate_succ, xorB, List.zipWith_cons_cons] at ih ⊢
    rw [← ih]; simp

end Verif.Modes
