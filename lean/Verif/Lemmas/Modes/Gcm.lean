import Verif.Lemmas.Modes.Ctr
import Verif.Lemmas.Modes.Gf128
import Verif.Spec.Gcm
/-! GCM. -/
namespace Verif.Modes

theorem inc32_eq {ctr : List Byte} (h : ctr.length = 16) : inc32 ctr = gcmInc ctr := by
  unfold inc32 gcmInc
  have hl : (ctr.drop 12).length = 4 := by rw [List.length_drop, h]
  have := incBE_spec (c := 4) (by omega) (beVal (ctr.drop 12))
  rw [show encodeBE 4 (beVal (ctr.drop 12)) = ctr.drop 12 by rw [← hl]; exact encodeBE_beVal _] at this
  rw [this]; rfl

theorem gcmInc_length {ctr : List Byte} (h : ctr.length = 16) : (gcmInc ctr).length = 16 := by
  unfold gcmInc; rw [List.length_append, encodeBE_length, List.length_take]; omega

/-- `k`-fold increment. -/
def gcmIncN : Nat → List Byte → List Byte
  | 0, cb => cb
  | k + 1, cb => gcmIncN k (gcmInc cb)

theorem gcmIncN_length : ∀ (k : Nat) {cb : List Byte}, cb.length = 16 → (gcmIncN k cb).length = 16
  | 0, _, h => h
  | k + 1, _, h => gcmIncN_length k (gcmInc_length h)

theorem gctrStream_add {E : List Byte → List Byte} : ∀ (j k : Nat) (cb : List Byte),
    gctrStream E cb (j + k) = gctrStream E cb j ++ gctrStream E (gcmIncN j cb) k
  | 0, k, cb => by simp [gctrStream, gcmIncN]
  | j + 1, k, cb => by
    rw [show j + 1 + k = (j + k) + 1 by omega, gctrStream, gctrStream, gctrStream_add j k, gcmIncN,
      List.append_assoc]

theorem gctrStream_length {E : List Byte → List Byte} (hE : ∀ b, b.length = 16 → (E b).length = 16) :
    ∀ (k : Nat) {cb : List Byte}, cb.length = 16 → (gctrStream E cb k).length = 16 * k
  | 0, _, _ => rfl
  | k + 1, cb, h => by
    rw [gctrStream, List.length_append, hE cb h, gctrStream_length hE k (gcmInc_length h)]; omega

theorem gctr_length {E : List Byte → List Byte} (hE : ∀ b, b.length = 16 → (E b).length = 16)
    {cb : List Byte} (h : cb.length = 16) (x : List Byte) : (gctr E cb x).length = x.length := by
  unfold gctr
  rw [xorB_length, gctrStream_length hE _ h]
  omega

theorem gcmOperateLoop_spec {E : List Byte → List Byte} (hE : ∀ b, b.length = 16 → (E b).length = 16)
    (ip : Bool) : ∀ (k : Nat) (ctr src : List Byte), ctr.length = 16 → src.length / 16 < k →
    gcmOperateLoop E ip k ctr src = (gctr E ctr src, gcmIncN ((src.length + 15) / 16) ctr) := by
  intro k
  induction k with
  | zero => intro ctr src _ h; omega
  | succ k ih =>
    intro ctr src hc hk
    rw [gcmOperateLoop]
    by_cases h16 : 16 ≤ src.length
    · rw [if_pos h16, inc32_eq hc]
      dsimp only
      rw [ih _ (src.drop 16) (gcmInc_length hc) (by rw [List.length_drop]; omega), List.length_drop]
      have hy : (if ip then mxor (src.take 16) (E ctr) else mxor (E ctr) (src.take 16)) =
          xorB (src.take 16) (E ctr) := by
        cases ip
        · exact xorB_comm _ _
        · rfl
      rw [hy]
      have hn : (src.length + 15) / 16 = (src.length - 16 + 15) / 16 + 1 := by omega
      rw [hn, gcmIncN]
      congr 1
      unfold gctr
      rw [hn, gctrStream, List.length_drop]
      conv_rhs => rw [← List.take_append_drop 16 src]
      rw [xorB_append _ _ (by rw [hE _ hc, List.length_take]; omega)]
      simp only [List.length_append, List.length_take, List.length_drop]
      rw [show min 16 src.length + (src.length - 16) - 16 = src.length - 16 by omega]
    · rw [if_neg h16]
      by_cases h0 : 0 < src.length
      · rw [if_pos h0, inc32_eq hc]
        have hn : (src.length + 15) / 16 = 0 + 1 := by omega
        unfold gctr
        rw [hn, gctrStream, gctrStream, gcmIncN, gcmIncN, List.append_nil]; rfl
      · have hs : src = [] := List.length_eq_zero_iff.1 (by omega)
        subst hs
        rfl

theorem gcmOperate_spec {E : List Byte → List Byte} (hE : ∀ b, b.length = 16 → (E b).length = 16)
    (ip : Bool) {ctr : List Byte} (src : List Byte) (h : ctr.length = 16) :
    gcmOperate E ip ctr src = (gctr E ctr src, gcmIncN ((src.length + 15) / 16) ctr) :=
  gcmOperateLoop_spec hE ip _ ctr src h (by omega)

theorem gctr_inv {E : List Byte → List Byte} (hE : ∀ b, b.length = 16 → (E b).length = 16)
    {cb : List Byte} (h : cb.length = 16) (x : List Byte) : gctr E cb (gctr E cb x) = x := by
  have hl := gctr_length hE h x
  conv_lhs => rw [gctr, hl]
  unfold gctr
  exact xorB_cancel (by rw [gctrStream_length hE _ h]; omega)

theorem gctr_append {E : List Byte → List Byte} (hE : ∀ b, b.length = 16 → (E b).length = 16)
    {cb : List Byte} (h : cb.length = 16) (x y : List Byte) (hx : 16 ∣ x.length) :
    gctr E cb (x ++ y) = gctr E cb x ++ gctr E (gcmIncN ((x.length + 15) / 16) cb) y := by
  unfold gctr
  rw [List.length_append, show (x.length + y.length + 15) / 16 =
    (x.length + 15) / 16 + (y.length + 15) / 16 by omega, gctrStream_add,
    xorB_append _ _ (by rw [gctrStream_length hE _ h]; omega)]

theorem gcmIncN_add : ∀ (j k : Nat) (cb : List Byte), gcmIncN (j + k) cb = gcmIncN k (gcmIncN j cb)
  | 0, k, cb => by simp [gcmIncN]
  | j + 1, k, cb => by rw [show j + 1 + k = (j + k) + 1 by omega, gcmIncN, gcmIncN_add j k, gcmIncN]

/-- Exclusive or with a short string pads with zeros. -/
theorem xorInto_pad {h x : List Byte} (hh : h.length = 16) (hx : x.length ≤ 16) :
    xorInto h x = xorB h (x ++ List.replicate (16 - x.length) 0) := by
  unfold xorInto
  rw [mxor_eq]
  have hz : ∀ (l : List Byte), xorB l (List.replicate l.length 0) = l := by
    intro l
    induction l with
    | nil => rfl
    | cons a l ih =>
      simp only [xorB, List.length_cons, List.replicate_succ, List.zipWith_cons_cons] at ih ⊢
      rw [ih]; simp
  conv_rhs => rw [← List.take_append_drop x.length h]
  rw [xorB_append _ _ (by rw [List.length_take]; omega), xorB_take_left _ _ _ le_rfl]
  congr 1
  have := hz (h.drop x.length)
  rw [List.length_drop, hh] at this
  exact this.symm

theorem xorInto_length {h x : List Byte} (hh : h.length = 16) (hx : x.length ≤ 16) :
    (xorInto h x).length = 16 := by
  rw [xorInto_pad hh hx, xorB_length, List.length_append, List.length_replicate]; omega

/-- GHASH continued from `h`. -/
def ghashFrom (H h : List Byte) (xs : List (List Byte)) : List Byte :=
  xs.foldl (fun y x => gfMul (xorB y x) H) h

theorem ghashFrom_length (H : List Byte) : ∀ (xs : List (List Byte)) {h : List Byte}, h.length = 16 →
    Blocks 16 xs → (ghashFrom H h xs).length = 16
  | [], h, hh, _ => hh
  | x :: xs, h, hh, hb => by
    obtain ⟨h1, h2⟩ := hb.cons
    exact ghashFrom_length H xs (Gf.gfMul_length (by rw [xorB_length]; omega) H) h2

theorem cut16_nil : cut16 [] = [] := rfl

theorem cut16_append {a : List Byte} (ha : a.length = 16) (l : List Byte) :
    cut16 (a ++ l) = a :: cut16 l := by
  unfold cut16
  rw [List.length_append, ha, show (16 + l.length) / 16 = l.length / 16 + 1 by omega, List.range_succ_eq_map,
    List.map_cons, List.map_map]
  congr 1
  · rw [Nat.mul_zero, List.drop_zero, List.take_left' ha]
  · apply List.map_congr_left
    intro i _
    rw [Function.comp_apply, Nat.succ_eq_add_one, Nat.mul_succ, Nat.add_comm, ← List.drop_drop,
      List.drop_left' ha]

theorem cut16_flatten : ∀ {bs : List (List Byte)} (l : List Byte), Blocks 16 bs →
    cut16 (bs.flatten ++ l) = bs ++ cut16 l
  | [], l, _ => rfl
  | b :: bs, l, h => by
    obtain ⟨h1, h2⟩ := h.cons
    rw [List.flatten_cons, List.append_assoc, cut16_append h1, cut16_flatten l h2, List.cons_append]

theorem cut16_dvd {a : List Byte} (ha : 16 ∣ a.length) (l : List Byte) :
    cut16 (a ++ l) = cut16 a ++ cut16 l ∧ Blocks 16 (cut16 a) := by
  obtain ⟨bs, hb, rfl⟩ := exists_blocks ha
  have h0 := cut16_flatten [] hb
  rw [List.append_nil, cut16_nil, List.append_nil] at h0
  rw [cut16_flatten l hb, h0]
  exact ⟨rfl, hb⟩

theorem pad16_dvd (l : List Byte) : 16 ∣ (pad16 l).length := by
  unfold pad16
  rw [List.length_append, List.length_replicate]
  omega

theorem pad16_whole {l : List Byte} (h : 16 ∣ l.length) : pad16 l = l := by
  unfold pad16
  rw [Nat.mod_eq_zero_of_dvd h]; simp

theorem pad16_append {a : List Byte} (h : 16 ∣ a.length) (l : List Byte) :
    pad16 (a ++ l) = a ++ pad16 l := by
  unfold pad16
  rw [List.length_append, show (a.length + l.length) % 16 = l.length % 16 by omega, List.append_assoc]

theorem gcmHashLoop_spec (H : List Byte) : ∀ (k : Nat) (h data : List Byte), h.length = 16 →
    data.length / 16 < k → gcmHashLoop H k h data = ghashFrom H h (cut16 (pad16 data)) := by
  intro k
  induction k with
  | zero => intro h data _ hk; omega
  | succ k ih =>
    intro h data hh hk
    rw [gcmHashLoop]
    by_cases h16 : 16 ≤ data.length
    · have ht : (data.take 16).length = 16 := by rw [List.length_take]; omega
      have hx : xorInto h (data.take 16) = xorB h (data.take 16) := by
        rw [xorInto_pad hh (by omega), ht]; simp
      rw [if_pos h16, ih _ _ (Gf.gfMul_length (xorInto_length hh (by omega)) H)
        (by rw [List.length_drop]; omega), hx]
      conv_rhs => rw [← List.take_append_drop 16 data, pad16_append (by rw [ht]), cut16_append ht]
      rfl
    · rw [if_neg h16]
      by_cases h0 : 0 < data.length
      · rw [if_pos h0, xorInto_pad hh (by omega)]
        have hp : pad16 data = (data ++ List.replicate (16 - data.length) 0) ++ [] := by
          unfold pad16
          rw [show (16 - data.length % 16) % 16 = 16 - data.length by omega, List.append_nil]
        rw [hp, cut16_append (by rw [List.length_append, List.length_replicate]; omega), cut16_nil]
        rfl
      · have hs : data = [] := List.length_eq_zero_iff.1 (by omega)
        subst hs
        rfl

theorem gcmHash_spec (H : List Byte) {h : List Byte} (data : List Byte) (hh : h.length = 16) :
    gcmHash h H data = ghashFrom H h (cut16 (pad16 data)) :=
  gcmHashLoop_spec H _ h data hh (by omega)

theorem gcmHash_length (H : List Byte) {h : List Byte} (data : List Byte) (hh : h.length = 16) :
    (gcmHash h H data).length = 16 := by
  rw [gcmHash_spec H data hh]
  exact ghashFrom_length H _ hh (cut16_dvd (pad16_dvd data) []).2

theorem gcmHash_append (H : List Byte) {h : List Byte} (a b : List Byte) (hh : h.length = 16)
    (ha : 16 ∣ a.length) : gcmHash h H (a ++ b) = gcmHash (gcmHash h H a) H b := by
  rw [gcmHash_spec H b (gcmHash_length H a hh), gcmHash_spec H a hh, gcmHash_spec H _ hh, pad16_append ha,
    (cut16_dvd ha _).1, pad16_whole ha]
  unfold ghashFrom
  rw [List.foldl_append]

theorem write32be_encode (v : BitVec 32) : write32be v = encodeBE 4 v.toNat := by
  obtain ⟨a, b, c, d, h1, h2⟩ := exists_write32be v
  rw [h1]
  have h3 := encodeBE_beVal [a, b, c, d]
  rw [← h3]
  have : beVal [a, b, c, d] = v.toNat := by
    rw [← h2, read32be_eq]
    simp only [beVal, List.foldl_cons, List.foldl_nil, BitVec.toNat_append]
    have ha := a.isLt; have hb := b.isLt; have hc := c.isLt; have hd := d.isLt
    rw [← Nat.shiftLeft_add_eq_or_of_lt hd, ← Nat.shiftLeft_add_eq_or_of_lt hc,
      ← Nat.shiftLeft_add_eq_or_of_lt hb, Nat.shiftLeft_eq, Nat.shiftLeft_eq, Nat.shiftLeft_eq]
    omega
  rw [this]; rfl

end Verif.Modes
