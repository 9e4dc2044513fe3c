import Verif.Lemmas.Hash.Md
import Verif.Model.Hash.Block
/-! The buffering of SHA-1 and SHA-512. -/
namespace Verif.Hash.Blk
open Verif.HashS Verif.HashL
open Verif.Modes (Blocks encodeBE)

variable {σ : Type} {w k : Nat} {process : σ → List Byte → σ} {iv : σ}

theorem whole_spec {B : Nat} (hB : 0 < B) : ∀ (n : Nat) (st : σ) (d m : List Byte), d.length ≤ n →
    Md B process iv m st [] →
    Md B process iv (m ++ d) (whole B process n st d).1 (whole B process n st d).2
  | 0, st, d, m, hn, h => by
    have : d = [] := List.eq_nil_of_length_eq_zero (by omega)
    subst this
    rw [List.append_nil]; exact h
  | n + 1, st, d, m, hn, h => by
    rw [whole]
    split_ifs with hc
    · have h1 := h.full (d := d.take B) (by rw [List.length_take, List.length_nil]; omega)
      have := whole_spec hB n _ (d.drop B) _ (by rw [List.length_drop]; omega) h1
      rwa [List.append_assoc, List.take_append_drop, List.nil_append] at this
    · have := h.short (d := d) (by rw [List.length_nil]; omega)
      exact this

theorem whole_short {B : Nat} (n : Nat) (st : σ) (d : List Byte) (h : d.length < B) :
    whole B process n st d = (st, d) := by
  cases n with
  | zero => rfl
  | succ n => rw [whole, if_neg (by omega)]

theorem copyTo_length {data d : List Byte} {pos : Nat} (h : pos + d.length ≤ data.length) :
    (copyTo data pos d).length = data.length := by
  simp only [copyTo, List.length_append, List.length_take, List.length_drop]; omega

theorem copyTo_take {data d : List Byte} {pos : Nat} (h : pos + d.length ≤ data.length) :
    (copyTo data pos d).take (pos + d.length) = data.take pos ++ d := by
  rw [copyTo, List.take_append_of_le_length (by simp only [List.length_append, List.length_take]; omega)]
  exact List.take_of_length_le (by simp only [List.length_append, List.length_take]; omega)

/-- The context has consumed `m`; blocks have `2^k` bytes. -/
structure Rep (k : Nat) (process : σ → List Byte → σ) (iv : σ) (c : Ctx w σ) (m : List Byte) : Prop where
  md : Md (2 ^ k) process iv m c.state (c.data.take (m.length % 2 ^ k))
  len : c.data.length = 2 ^ k
  count : c.len1.toNat * 2 ^ w + c.len0.toNat = m.length % (2 ^ w * 2 ^ w)

theorem Rep.len0 {c : Ctx w σ} {m : List Byte} (h : Rep k process iv c m) : c.len0.toNat = m.length % 2 ^ w := by
  have h1 := h.count
  have h2 := c.len0.isLt
  have h3 : m.length % (2 ^ w * 2 ^ w) % 2 ^ w = m.length % 2 ^ w := Nat.mod_mul_right_mod _ _ _
  rw [← h3, ← h1, Nat.mul_add_mod_self_right, Nat.mod_eq_of_lt h2]

theorem Rep.left {c : Ctx w σ} {m : List Byte} (h : Rep k process iv c m) (hk : k ≤ w) :
    (c.len0 &&& BitVec.ofNat w (2 ^ k - 1)).toNat = m.length % 2 ^ k := by
  have hp : 2 ^ k - 1 < 2 ^ w := by
    have h1 : 2 ^ k ≤ 2 ^ w := Nat.pow_le_pow_right (by omega) hk
    have h2 : 0 < 2 ^ k := Nat.two_pow_pos k
    omega
  rw [BitVec.toNat_and, BitVec.toNat_ofNat, Nat.mod_eq_of_lt hp, Nat.and_two_pow_sub_one_eq_mod, h.len0]
  exact Nat.mod_mod_of_dvd _ (pow_dvd_pow 2 hk)

/-- The counter. -/
theorem count_step {x0 x1 : BitVec w} {n l : Nat} (hl : l < 2 ^ w) (h : x1.toNat * 2 ^ w + x0.toNat = n % (2 ^ w * 2 ^ w)) :
    (if x0 + BitVec.ofNat w l < BitVec.ofNat w l then x1 + 1 else x1).toNat * 2 ^ w + (x0 + BitVec.ofNat w l).toNat =
      (n + l) % (2 ^ w * 2 ^ w) := by
  have hm : (n + l) % (2 ^ w * 2 ^ w) = (x1.toNat * 2 ^ w + x0.toNat + l) % (2 ^ w * 2 ^ w) := by
    rw [h, Nat.mod_add_mod]
  rw [hm]
  simp only [BitVec.lt_def]
  rw [BitVec.toNat_add, BitVec.toNat_ofNat, Nat.mod_eq_of_lt hl]
  have h0 := x0.isLt
  have h1 := x1.isLt
  have hone : (x1 + 1).toNat = (x1.toNat + 1) % 2 ^ w := by
    rw [BitVec.toNat_add]
    by_cases hw : w = 0
    · subst hw; simp [Nat.mod_one]
    · rw [show (1 : BitVec w) = BitVec.ofNat w 1 from rfl, BitVec.toNat_ofNat, Nat.add_mod_mod]
  by_cases hc : x0.toNat + l < 2 ^ w
  · rw [Nat.mod_eq_of_lt hc, if_neg (by omega), Nat.add_assoc, Nat.mod_eq_of_lt]
    have : (x1.toNat + 1) * 2 ^ w ≤ 2 ^ w * 2 ^ w := Nat.mul_le_mul_right _ h1
    rw [Nat.succ_mul] at this
    omega
  · have he : (x0.toNat + l) % 2 ^ w = x0.toNat + l - 2 ^ w := by
      rw [Nat.mod_eq_sub_mod (by omega), Nat.mod_eq_of_lt (by omega)]
    rw [he, if_pos (by omega), hone]
    have e : x1.toNat * 2 ^ w + x0.toNat + l = (x0.toNat + l - 2 ^ w) + 2 ^ w * (x1.toNat + 1) := by
      rw [Nat.mul_succ, Nat.mul_comm]; omega
    rw [e, Nat.mod_mul, Nat.add_mul_mod_self_left, Nat.mod_eq_of_lt (a := x0.toNat + l - 2 ^ w) (by omega),
      Nat.add_mul_div_left _ _ (Nat.two_pow_pos w), Nat.div_eq_of_lt (a := x0.toNat + l - 2 ^ w) (by omega),
      Nat.zero_add, Nat.mul_comm (2 ^ w)]
    omega

theorem update_rep {c : Ctx w σ} {m d : List Byte} (hk : k ≤ w) (hw : 32 ≤ w) (hd : d.length < 2 ^ 32)
    (h : Rep k process iv c m) : Rep k process iv (update (2 ^ k) process c d) (m ++ d) := by
  have hB : 0 < 2 ^ k := Nat.two_pow_pos k
  have hleft := h.left hk
  have hcount := count_step (l := d.length) (lt_of_lt_of_le hd (Nat.pow_le_pow_right (by omega) hw)) h.count
  have hrl := h.md.rest_length
  have hlen := h.len
  have hlt := Nat.mod_lt m.length hB
  unfold update
  rw [hleft, Nat.mod_eq_of_lt hd]
  dsimp only
  by_cases h0 : d.length = 0
  · rw [if_pos h0]
    have : d = [] := List.eq_nil_of_length_eq_zero h0
    subst this; rw [List.append_nil]; exact h
  rw [if_neg h0]
  by_cases hc : m.length % 2 ^ k ≠ 0 ∧ 2 ^ k - m.length % 2 ^ k ≤ d.length
  · -- the block is completed
    rw [if_pos hc]
    obtain ⟨hne, hfill⟩ := hc
    have hfl : (d.take (2 ^ k - m.length % 2 ^ k)).length = 2 ^ k - m.length % 2 ^ k := by
      rw [List.length_take]; omega
    have hfit : m.length % 2 ^ k + (d.take (2 ^ k - m.length % 2 ^ k)).length = c.data.length := by
      rw [hfl, hlen]; omega
    have hct := copyTo_take (data := c.data) (le_of_eq hfit)
    have hcl := copyTo_length (data := c.data) (le_of_eq hfit)
    rw [hfit, ← hcl, List.take_length] at hct
    have h1 := h.md.full (d := d.take (2 ^ k - m.length % 2 ^ k)) (by rw [hrl, hfit, hlen])
    rw [← hct] at h1
    have h2 := whole_spec hB d.length _ (d.drop (2 ^ k - m.length % 2 ^ k)) _ (by rw [List.length_drop]; omega) h1
    rw [List.append_assoc, List.take_append_drop] at h2
    generalize copyTo c.data (m.length % 2 ^ k) (d.take (2 ^ k - m.length % 2 ^ k)) = data at *
    generalize whole (2 ^ k) process d.length (process c.state data) (d.drop (2 ^ k - m.length % 2 ^ k)) = p at *
    have hp := h2.1
    have hrest := h2.rest_length
    have hdl : data.length = 2 ^ k := by rw [hcl, hlen]
    refine ⟨?_, ?_, ?_⟩
    · dsimp only
      rw [← hrest]
      have : List.take p.2.length (if 0 < p.2.length then copyTo data 0 p.2 else data) = p.2 := by
        split_ifs with hpos
        · have := copyTo_take (data := data) (pos := 0) (d := p.2) (by omega)
          rwa [Nat.zero_add, List.take_zero, List.nil_append] at this
        · rw [List.eq_nil_of_length_eq_zero (l := p.2) (by omega)]; rfl
      rw [this]; exact h2
    · dsimp only
      split_ifs
      · rw [copyTo_length (by omega), hdl]
      · exact hdl
    · rw [List.length_append]; exact hcount
  · -- nothing is completed, or the buffer is empty
    rw [if_neg hc]
    by_cases hz : m.length % 2 ^ k = 0
    · have h1 : Md (2 ^ k) process iv m c.state [] := by
        have := h.md
        rwa [hz, List.take_zero] at this
      have h2 := whole_spec hB d.length _ d _ (le_refl _) h1
      rw [hz]
      generalize whole (2 ^ k) process d.length c.state d = p at *
      have hp := h2.1
      have hrest := h2.rest_length
      refine ⟨?_, ?_, ?_⟩
      · dsimp only
        rw [← hrest]
        have : List.take p.2.length (if 0 < p.2.length then copyTo c.data 0 p.2 else c.data) = p.2 := by
          split_ifs with hpos
          · have := copyTo_take (data := c.data) (pos := 0) (d := p.2) (by omega)
            rwa [Nat.zero_add, List.take_zero, List.nil_append] at this
          · rw [List.eq_nil_of_length_eq_zero (l := p.2) (by omega)]; rfl
        rw [this]; exact h2
      · dsimp only
        split_ifs
        · rw [copyTo_length (by omega), hlen]
        · exact hlen
      · rw [List.length_append]; exact hcount
    · have hs : m.length % 2 ^ k + d.length < 2 ^ k := by
        by_contra hcon
        exact hc ⟨hz, by omega⟩
      have h2 := h.md.short (d := d) (by rw [hrl]; exact hs)
      rw [whole_short _ _ _ (by omega)]
      dsimp only
      rw [if_pos (by omega)]
      have hmod : (m ++ d).length % 2 ^ k = m.length % 2 ^ k + d.length := by
        rw [List.length_append, ← Nat.mod_add_mod, Nat.mod_eq_of_lt hs]
      refine ⟨?_, ?_, ?_⟩
      · dsimp only
        rw [hmod, copyTo_take (by omega)]
        exact h2
      · dsimp only; rw [copyTo_length (by omega), hlen]
      · rw [List.length_append]; exact hcount

/-- The length in bits, in two words. -/
theorem bits_value {x0 x1 : BitVec w} (hw : 3 ≤ w) {n : Nat} (h : x1.toNat * 2 ^ w + x0.toNat = n % (2 ^ w * 2 ^ w)) :
    ((x0 >>> (w - 3)) ||| (x1 <<< 3)).toNat * 2 ^ w + (x0 <<< 3).toNat = 8 * n % (2 ^ w * 2 ^ w) := by
  obtain ⟨v, rfl⟩ : ∃ v, w = v + 3 := ⟨w - 3, by omega⟩
  have h0 := x0.isLt
  have h1 := x1.isLt
  have hpow : 2 ^ (v + 3) = 8 * 2 ^ v := by rw [Nat.pow_add, Nat.mul_comm]
  have hor : ((x0 >>> (v + 3 - 3)) ||| (x1 <<< 3)).toNat = x0.toNat / 2 ^ v + 8 * (x1.toNat % 2 ^ v) := by
    rw [BitVec.toNat_or, BitVec.toNat_ushiftRight, BitVec.toNat_shiftLeft, Nat.add_sub_cancel, Nat.shiftRight_eq_div_pow,
      Nat.shiftLeft_eq, Nat.or_comm]
    have : x1.toNat * 2 ^ 3 % 2 ^ (v + 3) = (x1.toNat % 2 ^ v) <<< 3 := by
      rw [Nat.shiftLeft_eq, hpow, show 2 ^ 3 = 8 from rfl, Nat.mul_comm x1.toNat, Nat.mul_mod_mul_left, Nat.mul_comm]
    have hd : x0.toNat / 2 ^ v < 2 ^ 3 := by
      apply Nat.div_lt_of_lt_mul
      rw [Nat.mul_comm]; rw [hpow] at h0; exact h0
    rw [this, ← Nat.shiftLeft_add_eq_or_of_lt hd, Nat.shiftLeft_eq]
    omega
  have hlo : (x0 <<< 3).toNat = 8 * (x0.toNat % 2 ^ v) := by
    rw [BitVec.toNat_shiftLeft, Nat.shiftLeft_eq, hpow, show 2 ^ 3 = 8 from rfl, Nat.mul_comm x0.toNat, Nat.mul_mod_mul_left]
  have hm : 8 * n % (2 ^ (v + 3) * 2 ^ (v + 3)) = 8 * (x1.toNat * 2 ^ (v + 3) + x0.toNat) % (2 ^ (v + 3) * 2 ^ (v + 3)) := by
    rw [h, Nat.mul_mod_mod]
  rw [hor, hlo, hm]
  have hx0 := Nat.div_add_mod x0.toNat (2 ^ v)
  have hx1 := Nat.div_add_mod x1.toNat (2 ^ v)
  have q0 : x0.toNat / 2 ^ v < 8 := by
    apply Nat.div_lt_of_lt_mul
    rw [Nat.mul_comm]; rw [hpow] at h0; exact h0
  have r0 := Nat.mod_lt x0.toNat (Nat.two_pow_pos v)
  have r1 := Nat.mod_lt x1.toNat (Nat.two_pow_pos v)
  generalize x0.toNat / 2 ^ v = a at *
  generalize x0.toNat % 2 ^ v = b at *
  generalize x1.toNat / 2 ^ v = c at *
  generalize x1.toNat % 2 ^ v = d at *
  rw [hpow, ← hx0, ← hx1]
  generalize 2 ^ v = q at *
  have e : 8 * ((q * c + d) * (8 * q) + (q * a + b)) = ((a + 8 * d) * (8 * q) + 8 * b) + 8 * q * (8 * q) * c := by ring
  rw [e, Nat.add_mul_mod_self_left, Nat.mod_eq_of_lt]
  have h2 : (a + 8 * d + 1) * (8 * q) ≤ (8 * q) * (8 * q) := Nat.mul_le_mul_right _ (by omega)
  rw [Nat.succ_mul] at h2
  omega

end Verif.Hash.Blk
