import Verif.Lemmas.Ram.CbcIn
import Verif.Props.Modes.Cbc
/-! CBC decryption, the whole function. -/
namespace Verif.Ram
open Verif.Modes (xorB cbcEnc cbcDec Blocks xorB_length xorB_comm)

variable {E D : List Byte → List Byte} {c : Nat}

/-- A range that may be accessed and one that may not have nothing in common. -/
theorem apart_of_own {R : Ram} {a n b m : Nat} (hn : 0 < n) (hm : 0 < m) (h : R.Owned a n)
    (h' : ∀ i < m, R.own (b + i) = false) : Apart a n b m := by
  unfold Apart
  by_contra hcon
  by_cases hab : a ≤ b
  · have h1 := h (b - a) (by omega)
    have h2 := h' 0 hm
    rw [show a + (b - a) = b + 0 by omega, h2] at h1
    exact absurd h1 (by decide)
  · have h1 := h 0 hn
    have h2 := h' (a - b) (by omega)
    rw [show b + (a - b) = a + 0 by omega, h1] at h2
    exact absurd h2 (by decide)

theorem setOwn_mem (R : Ram) (a n : Nat) (v : Bool) : (R.setOwn a n v).mem = R.mem := rfl

theorem setOwn_owned {R : Ram} {a n b m : Nat} (h : R.Owned b m) : (R.setOwn a n true).Owned b m := by
  intro i hi
  unfold Ram.setOwn
  dsimp only
  split
  · rfl
  · exact h i hi

theorem setOwn_self {R : Ram} {a n : Nat} : (R.setOwn a n true).Owned a n := by
  intro i hi
  unfold Ram.setOwn
  dsimp only
  rw [if_pos (by omega)]

theorem setOwn_back {R R' : Ram} {a n : Nat} (h : R'.own = (R.setOwn a n true).own) (h' : ∀ i < n, R.own (a + i) = false) :
    (R'.setOwn a n false).own = R.own := by
  funext x
  unfold Ram.setOwn at *
  dsimp only at *
  split
  · next hx =>
    have := h' (x - a) (by omega)
    rw [show a + (x - a) = x by omega] at this
    exact this.symm
  · next hx => rw [h]; exact if_neg hx

theorem maskSize_blocks {k size : Nat} (hk : k ≤ 4) (hsz : size < 2 ^ 64) :
    Modes.maskSize size (2 ^ k) = size / 2 ^ k * 2 ^ k := by
  rw [Modes.maskSize_eq (by omega) hsz, Nat.div_mul_self_eq_mod_sub_self]

/-- Decryption between buffers that do not overlap. -/
theorem cbcDecrypt_out {k : Nat} (hk : k ≤ 4) (hD : ∀ b, b.length = 2 ^ k → (D b).length = 2 ^ k) {ctx fb ivA : Nat}
    {heap : Option Nat} {R : Ram} {d s size : Nat} {bs : List (List Byte)} {iv : List Byte} (hsz : size < 2 ^ 64)
    (hb : Blocks (2 ^ k) bs) (hne : bs ≠ []) (hn : bs.length = size / 2 ^ k) (hx : R.Owned ctx (2 ^ k))
    (hs : R.Owned s (bs.length * 2 ^ k)) (hd : R.Owned d (bs.length * 2 ^ k))
    (hxs : Apart ctx (2 ^ k) s (bs.length * 2 ^ k)) (hxd : Apart ctx (2 ^ k) d (bs.length * 2 ^ k))
    (hp : Apart d (bs.length * 2 ^ k) s (bs.length * 2 ^ k)) (hi : R.bytes ctx (2 ^ k) = iv)
    (e : R.bytes s (bs.length * 2 ^ k) = bs.flatten) :
    ∃ R', cbcDecrypt D (2 ^ k) ctx heap fb ivA R d s size = some R' ∧
      Wrote R R' [(d, (cbcDec D iv bs).flatten), (ctx, bs.getLastD iv)] [] := by
  have hc := Nat.two_pow_pos k
  have hil : iv.length = 2 ^ k := by rw [← hi, bytes_length]
  have hll := Modes.getLastD_length hb hil
  have hdl := cbcDec_length hD hil hb
  have hpos := Nat.mul_pos (List.length_pos_iff.2 hne) hc
  have hle := Nat.div_mul_le_self size (2 ^ k)
  unfold cbcDecrypt
  dsimp only
  rw [maskSize_blocks hk hsz, ← hn, if_pos (by unfold Apart at hp; omega),
    cbcDecOut_ram hD hc hb hne (by rw [hn]; omega) hx hs hd hxs hxd hp hi e]
  unfold Apart at hxd
  refine ⟨_, rfl, rfl, rfl, ?_, ?_⟩
  · simp only [List.mem_cons, List.not_mem_nil, or_false, forall_eq_or_imp, forall_eq]
    exact ⟨by rw [bytes_put_apart (by apt), bytes_put_same rfl], bytes_put_same rfl⟩
  · intro x h1 h2
    simp only [List.mem_cons, List.not_mem_nil, or_false, forall_eq_or_imp, forall_eq, Outside] at h1
    rw [put_mem_out (by omega), put_mem_out (by omega)]

/-- Decryption in place, the scratch buffer on the heap. -/
theorem cbcDecrypt_in_heap {k : Nat} (hk : k ≤ 4) (hD : ∀ b, b.length = 2 ^ k → (D b).length = 2 ^ k) {ctx buf fb ivA : Nat}
    {R : Ram} {d size : Nat} {bs : List (List Byte)} {iv : List Byte} (hsz : size < 2 ^ 64)
    (hb : Blocks (2 ^ k) bs) (hne : bs ≠ []) (hn : bs.length = size / 2 ^ k) (hx : R.Owned ctx (2 ^ k))
    (hd : R.Owned d (bs.length * 2 ^ k)) (hv : R.Owned ivA (2 ^ k))
    (hf : ∀ i < min (bs.length * 2 ^ k) 512, R.own (buf + i) = false)
    (hxd : Apart ctx (2 ^ k) d (bs.length * 2 ^ k)) (hxv : Apart ctx (2 ^ k) ivA (2 ^ k))
    (hdv : Apart d (bs.length * 2 ^ k) ivA (2 ^ k)) (hi : R.bytes ctx (2 ^ k) = iv)
    (e : R.bytes d (bs.length * 2 ^ k) = bs.flatten) :
    ∃ R', cbcDecrypt D (2 ^ k) ctx (some buf) fb ivA R d d size = some R' ∧
      Wrote R R' [(d, (cbcDec D iv bs).flatten), (ctx, bs.getLastD iv)]
        [(buf, min (bs.length * 2 ^ k) 512), (ivA, 2 ^ k)] := by
  have hc := Nat.two_pow_pos k
  have hpos := Nat.mul_pos (List.length_pos_iff.2 hne) hc
  have hle := Nat.div_mul_le_self size (2 ^ k)
  obtain ⟨q, hq0, hq⟩ : ∃ q, 0 < q ∧ min (bs.length * 2 ^ k) 512 = q * 2 ^ k := by
    obtain ⟨y, hy⟩ : 2 ^ k ∣ 2 ^ 9 := pow_dvd_pow 2 (by omega)
    have hy' : (512 : Nat) = y * 2 ^ k := by rw [Nat.mul_comm]; exact hy
    have hy0 : 0 < y := by
      rcases Nat.eq_zero_or_pos y with rfl | h
      · simp at hy
      · exact h
    exact ⟨min bs.length y, by have := List.length_pos_iff.2 hne; omega, by rw [hy', Nat.mul_min_mul_right]⟩
  have hqp := Nat.mul_pos hq0 hc
  unfold cbcDecrypt
  dsimp only
  rw [maskSize_blocks hk hsz, ← hn, if_neg (by simp)]
  rw [hq] at hf ⊢
  obtain ⟨R1, h1, w⟩ := cbcInLoop_ram (ctx := ctx) (buf := buf) (ivA := ivA) hD hc hq0 (bs.length * 2 ^ k) bs
    (R.setOwn buf (q * 2 ^ k) true) d iv hb hne (Nat.le_mul_of_pos_right _ hc) (by rw [hn]; omega) (setOwn_owned hx)
    (setOwn_owned hd) setOwn_self (setOwn_owned hv) hxd (apart_of_own hc hqp hx hf) hxv (apart_of_own hpos hqp hd hf) hdv
    (apart_of_own hc hqp hv hf).flip hi e
  rw [h1]
  refine ⟨_, rfl, setOwn_back w.own hf, w.tmp, w.at_, w.else_⟩

/-- Decryption in place when there is no memory: the local array of 16 bytes is used. -/
theorem cbcDecrypt_in_fallback {k : Nat} (hk : k ≤ 4) (hD : ∀ b, b.length = 2 ^ k → (D b).length = 2 ^ k) {ctx fb ivA : Nat}
    {R : Ram} {d size : Nat} {bs : List (List Byte)} {iv : List Byte} (hsz : size < 2 ^ 64)
    (hb : Blocks (2 ^ k) bs) (hne : bs ≠ []) (hn : bs.length = size / 2 ^ k) (hx : R.Owned ctx (2 ^ k))
    (hd : R.Owned d (bs.length * 2 ^ k)) (hf : R.Owned fb 16) (hv : R.Owned ivA (2 ^ k))
    (hxd : Apart ctx (2 ^ k) d (bs.length * 2 ^ k)) (hxf : Apart ctx (2 ^ k) fb 16) (hxv : Apart ctx (2 ^ k) ivA (2 ^ k))
    (hdf : Apart d (bs.length * 2 ^ k) fb 16) (hdv : Apart d (bs.length * 2 ^ k) ivA (2 ^ k))
    (hfv : Apart fb 16 ivA (2 ^ k)) (hi : R.bytes ctx (2 ^ k) = iv)
    (e : R.bytes d (bs.length * 2 ^ k) = bs.flatten) :
    ∃ R', cbcDecrypt D (2 ^ k) ctx none fb ivA R d d size = some R' ∧
      Wrote R R' [(d, (cbcDec D iv bs).flatten), (ctx, bs.getLastD iv)] [(fb, 16), (ivA, 2 ^ k)] := by
  have hc := Nat.two_pow_pos k
  have hle := Nat.div_mul_le_self size (2 ^ k)
  obtain ⟨q, hq0, hq⟩ : ∃ q, 0 < q ∧ 16 = q * 2 ^ k := by
    obtain ⟨y, hy⟩ : 2 ^ k ∣ 2 ^ 4 := pow_dvd_pow 2 (by omega)
    have hy' : (16 : Nat) = y * 2 ^ k := by rw [Nat.mul_comm]; exact hy
    have hy0 : 0 < y := by
      rcases Nat.eq_zero_or_pos y with rfl | h
      · simp at hy
      · exact h
    exact ⟨y, hy0, hy'⟩
  unfold cbcDecrypt
  dsimp only
  rw [maskSize_blocks hk hsz, ← hn, if_neg (by simp)]
  rw [hq] at hf hxf hdf hfv ⊢
  exact cbcInLoop_ram (ctx := ctx) (buf := fb) (ivA := ivA) hD hc hq0 (bs.length * 2 ^ k) bs
    R d iv hb hne (Nat.le_mul_of_pos_right _ hc) (by rw [hn]; omega) hx hd hf hv hxd hxf hxv hdf hdv hfv hi e

end Verif.Ram
