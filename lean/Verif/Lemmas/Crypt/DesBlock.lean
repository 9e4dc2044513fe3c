import Verif.Lemmas.Crypt.Des
/-! DES: the block function against the standard, and the standard by itself. -/
namespace Verif.Des
open Verif.DesS

theorem tabs_eq : ipTab = ip ∧ fpTab = ipInv ∧ expTab = expand ∧ pTab = p ∧ pc1Tab = pc1C ++ pc1D ∧ pc2Tab = pc2 := by
  decide +kernel

theorem perm_length (tab : List Nat) (b : List Bool) : (perm tab b).length = tab.length := List.length_map _

theorem perm_append (s t : List Nat) (b : List Bool) : perm (s ++ t) b = perm s b ++ perm t b := List.map_append

/-- The block as two halves. -/
def Halves (block : List Byte) (lr : List Bool × List Bool) : Prop :=
  block.length = 8 ∧ bits (block.take 4) = lr.1 ∧ bits (block.drop 4) = lr.2

theorem round_halves {block pc1 : List Byte} {lr : List Bool × List Bool} (h : Halves block lr) :
    Halves (block.drop 4 ++ mxor (block.take 4) (permute (subst (mxor (permute (block.drop 4) expTab 6)
      (permute pc1 pc2Tab 6))) pTab 4)) (DesS.round lr (perm pc2 (bits pc1))) := by
  obtain ⟨h1, h2, h3⟩ := h
  have hd : (block.drop 4).length = 4 := by rw [List.length_drop, h1]
  have ht : (block.take 4).length = 4 := by rw [List.length_take, h1]; rfl
  have hm : (mxor (block.take 4) (permute (subst (mxor (permute (block.drop 4) expTab 6)
      (permute pc1 pc2Tab 6))) pTab 4)).length = 4 := by
    rw [mxor_length (by rw [ht, permute_length]), ht]
  refine ⟨by rw [List.length_append, hd, hm], ?_, ?_⟩
  · rw [List.take_left' hd, h3]; rfl
  · rw [List.drop_left' hd, mxor_bits (by rw [ht, permute_length]), h2,
      permute_bits _ (by decide +kernel), subst_bits (by rw [mxor_length (by rw [permute_length, permute_length]), permute_length]),
      mxor_bits (by rw [permute_length, permute_length]), permute_bits _ (by decide +kernel),
      permute_bits _ (by decide +kernel), h3]
    obtain ⟨-, -, e1, e2, -, e3⟩ := tabs_eq
    rw [e1, e2, e3]
    rfl

/-- The sum of the first shifts. -/
def cum (n : Nat) : Nat := (shifts.take n).sum

theorem cum_enc : ∀ r, r < 16 → cum (r + 1) = cum r + if ¬ (r ≤ 1 ∨ r = 8 ∨ r = 15) then 2 else 1 := by decide +kernel

theorem cum_dec : ∀ r, r < 16 →
    (cum (16 - r) + if ¬ (r ≥ 14 ∨ r = 7 ∨ r = 0) then 54 else 27) % 28 = cum (15 - r) % 28 := by decide +kernel

theorem keyEnc_reg {C D : List Bool} {r : Nat} (hr : r < 16) {l : List Byte} (h : KeyReg C D (cum r) l) :
    KeyReg C D (cum (r + 1)) (keyEnc r l) := by
  rw [cum_enc r hr, keyEnc]
  split_ifs
  · exact h.rol
  · exact h.rol.rol

theorem keyDec_reg {C D : List Bool} {r : Nat} (hr : r < 16) {l : List Byte} (h : KeyReg C D (cum (16 - r)) l) :
    KeyReg C D (cum (15 - r)) (keyDec r l) := by
  have hc := cum_dec r hr
  rw [keyDec]
  split_ifs at hc ⊢
  · exact h.ror.mod hc
  · exact h.ror.ror.mod hc

theorem subkey_reg {key : List Bool} {n : Nat} {l : List Byte} (h : KeyReg (perm pc1C key) (perm pc1D key) (cum (n + 1)) l) :
    perm pc2 (bits l) = subkey key n := by
  rw [h.2.2.2]; rfl

theorem pc1_reg (key : List Byte) : KeyReg (perm pc1C (bits key)) (perm pc1D (bits key)) 0 (permute key pc1Tab 7) := by
  refine ⟨permute_length _ _ _, by rw [perm_length]; rfl, by rw [perm_length]; rfl, ?_⟩
  rw [permute_bits _ (by decide +kernel), tabs_eq.2.2.2.2.1, perm_append, List.rotate_zero, List.rotate_zero]

theorem rounds_enc (key block : List Byte) (lr : List Bool × List Bool) (h : Halves block lr) : ∀ n, n ≤ 16 →
    Halves ((List.range n).foldl (roundStep true) (block, permute key pc1Tab 7)).1
      (((List.range n).map (subkey (bits key))).foldl DesS.round lr) ∧
    KeyReg (perm pc1C (bits key)) (perm pc1D (bits key)) (cum n)
      ((List.range n).foldl (roundStep true) (block, permute key pc1Tab 7)).2 := by
  intro n
  induction n with
  | zero => intro _; exact ⟨h, pc1_reg key⟩
  | succ n ih =>
    intro hn
    obtain ⟨h1, h2⟩ := ih (by omega)
    rw [List.range_succ, List.map_append, List.foldl_append, List.foldl_append, List.map_singleton, List.foldl_cons,
      List.foldl_nil, List.foldl_cons, List.foldl_nil]
    generalize (List.range n).foldl (roundStep true) (block, permute key pc1Tab 7) = st at h1 h2 ⊢
    generalize ((List.range n).map (subkey (bits key))).foldl DesS.round lr = lr' at h1 ⊢
    have hk := keyEnc_reg (by omega) h2
    refine ⟨?_, hk⟩
    rw [← subkey_reg hk]
    exact round_halves h1

theorem rounds_dec (key block : List Byte) (lr : List Bool × List Bool) (h : Halves block lr) : ∀ n, n ≤ 16 →
    Halves ((List.range n).foldl (roundStep false) (block, permute key pc1Tab 7)).1
      (((List.range n).map (fun r => subkey (bits key) (15 - r))).foldl DesS.round lr) ∧
    KeyReg (perm pc1C (bits key)) (perm pc1D (bits key)) (cum (16 - n))
      ((List.range n).foldl (roundStep false) (block, permute key pc1Tab 7)).2 := by
  intro n
  induction n with
  | zero => intro _; exact ⟨h, (pc1_reg key).mod (by decide +kernel)⟩
  | succ n ih =>
    intro hn
    obtain ⟨h1, h2⟩ := ih (by omega)
    rw [List.range_succ, List.map_append, List.foldl_append, List.foldl_append, List.map_singleton, List.foldl_cons,
      List.foldl_nil, List.foldl_cons, List.foldl_nil]
    generalize (List.range n).foldl (roundStep false) (block, permute key pc1Tab 7) = st at h1 h2 ⊢
    generalize ((List.range n).map (fun r => subkey (bits key) (15 - r))).foldl DesS.round lr = lr' at h1 ⊢
    have hk := keyDec_reg (by omega) h2
    rw [show 15 - n = 16 - (n + 1) by omega] at hk
    refine ⟨?_, hk⟩
    have h3 := h2
    rw [show 16 - n = (15 - n) + 1 by omega] at h3
    rw [← subkey_reg h3]
    exact round_halves h1

theorem blockOperate_length (src key : List Byte) (e : Bool) : (blockOperate src key e).length = 8 := permute_length _ _ _

theorem finish {block : List Byte} {lr : List Bool × List Bool} (h : Halves block lr) :
    bits (permute (block.drop 4 ++ block.take 4) fpTab 8) = perm ipInv (lr.2 ++ lr.1) := by
  rw [permute_bits _ (by decide +kernel), bits_append, h.2.1, h.2.2, tabs_eq.2.1]

theorem start (src : List Byte) :
    Halves (permute src ipTab 8) ((perm ip (bits src)).take 32, (perm ip (bits src)).drop 32) := by
  have hl := permute_length src ipTab 8
  have hb : bits (permute src ipTab 8) = perm ip (bits src) := by
    rw [permute_bits _ (by decide +kernel), tabs_eq.1]
  refine ⟨hl, ?_, ?_⟩
  · rw [← hb]
    conv_rhs => rw [← List.take_append_drop 4 (permute src ipTab 8), bits_append]
    rw [List.take_left' (by rw [bits_length, List.length_take, hl]; rfl)]
  · rw [← hb]
    conv_rhs => rw [← List.take_append_drop 4 (permute src ipTab 8), bits_append]
    rw [List.drop_left' (by rw [bits_length, List.length_take, hl]; rfl)]

theorem operate_enc (src key : List Byte) : bits (blockOperate src key true) = enc (bits key) (bits src) := by
  have h := (rounds_enc key _ _ (start src) 16 (le_refl _)).1
  exact finish h

theorem keys_reverse (key : List Bool) : (keys key).reverse = (List.range 16).map (fun r => subkey key (15 - r)) := by
  have : (List.range 16).reverse = (List.range 16).map (15 - ·) := by decide
  rw [keys, ← List.map_reverse, this, List.map_map]
  rfl

theorem operate_dec (src key : List Byte) : bits (blockOperate src key false) = dec (bits key) (bits src) := by
  have h := (rounds_dec key _ _ (start src) 16 (le_refl _)).1
  rw [dec, keys_reverse]
  exact finish h

/-! ### The standard: deciphering inverts enciphering -/

theorem xor_length {a b : List Bool} (h : a.length = b.length) : (DesS.xor a b).length = a.length := by
  rw [DesS.xor, List.length_zipWith, ← h, Nat.min_self]

theorem xor_xor : ∀ {a b : List Bool}, a.length = b.length → DesS.xor (DesS.xor a b) b = a
  | [], [], _ => rfl
  | x :: a, y :: b, h => by
    have := xor_xor (a := a) (b := b) (by simpa using h)
    simp only [DesS.xor, List.zipWith_cons_cons] at this ⊢
    rw [this]
    cases x <;> cases y <;> rfl

theorem f_length (r k : List Bool) : (DesS.f r k).length = 32 := by
  rw [DesS.f, perm_length]; rfl

theorem feistel : ∀ (ks : List (List Bool)) (l r : List Bool), l.length = 32 →
    r.length = 32 →
    ks.reverse.foldl DesS.round (ks.foldl DesS.round (l, r)).swap = (r, l)
  | [], l, r, _, _ => rfl
  | k :: ks, l, r, hl, hr => by
    have hx : (DesS.xor l (DesS.f r k)).length = 32 := by rw [xor_length (by rw [hl, f_length]), hl]
    have ih := feistel ks r (DesS.xor l (DesS.f r k)) hr hx
    have hs : (k :: ks).foldl DesS.round (l, r) = ks.foldl DesS.round (r, DesS.xor l (DesS.f r k)) := rfl
    rw [hs, List.reverse_cons, List.foldl_append, ih, List.foldl_cons, List.foldl_nil, DesS.round]
    dsimp only
    rw [xor_xor (by rw [hl, f_length])]

theorem rounds_length : ∀ (ks : List (List Bool)) (l r : List Bool), l.length = 32 → r.length = 32 →
    (ks.foldl DesS.round (l, r)).1.length = 32 ∧ (ks.foldl DesS.round (l, r)).2.length = 32
  | [], l, r, hl, hr => ⟨hl, hr⟩
  | k :: ks, l, r, hl, hr => by
    have hx : (DesS.xor l (DesS.f r k)).length = 32 := by rw [xor_length (by rw [hl, f_length]), hl]
    exact rounds_length ks r _ hr hx

theorem perm_perm {s t : List Nat} (hs : ∀ i ∈ s, i - 1 < t.length) (b : List Bool) :
    perm s (perm t b) = perm (s.map fun i => t.getD (i - 1) 0) b := by
  rw [perm, perm, perm, List.map_map]
  apply List.map_congr_left
  intro i hi
  have := hs i hi
  simp only [Function.comp]
  rw [List.getD_eq_getElem?_getD, List.getElem?_map, List.getElem?_eq_getElem this,
    List.getD_eq_getElem?_getD (l := t), List.getElem?_eq_getElem this]
  rfl

theorem perm_id {b : List Bool} (h : b.length = 64) : perm ((List.range 64).map (· + 1)) b = b := by
  apply List.ext_getElem
  · simp [perm, h]
  · intro k h1 h2
    have he : (perm ((List.range 64).map (· + 1)) b)[k] = b.getD k false := by
      simp only [perm, List.getElem_map, List.getElem_range, Nat.add_sub_cancel]
    rw [he, List.getD_eq_getElem?_getD, List.getElem?_eq_getElem h2]
    rfl

theorem ip_ipInv {b : List Bool} (h : b.length = 64) : perm ip (perm ipInv b) = b := by
  rw [perm_perm (by decide +kernel), show (ip.map fun i => ipInv.getD (i - 1) 0) = (List.range 64).map (· + 1) by
    decide +kernel, perm_id h]

theorem ipInv_ip {b : List Bool} (h : b.length = 64) : perm ipInv (perm ip b) = b := by
  rw [perm_perm (by decide +kernel), show (ipInv.map fun i => ip.getD (i - 1) 0) = (List.range 64).map (· + 1) by
    decide +kernel, perm_id h]

theorem cipher_reverse (ks : List (List Bool)) {b : List Bool} (h : b.length = 64) :
    cipher ks.reverse (cipher ks b) = b := by
  have hx : (perm ip b).length = 64 := by rw [perm_length]; rfl
  have hl : ((perm ip b).take 32).length = 32 := by rw [List.length_take, hx]; rfl
  have hr : ((perm ip b).drop 32).length = 32 := by rw [List.length_drop, hx]
  obtain ⟨h1, h2⟩ := rounds_length ks _ _ hl hr
  have hf := feistel ks _ _ hl hr
  unfold cipher
  dsimp only
  generalize ks.foldl DesS.round ((perm ip b).take 32, (perm ip b).drop 32) = y at h1 h2 hf ⊢
  rw [ip_ipInv (by rw [List.length_append, h1, h2]), List.take_left' h2, List.drop_left' h2]
  rw [show (y.2, y.1) = y.swap from rfl, hf]
  dsimp only
  rw [List.take_append_drop, ipInv_ip h]

theorem dec_enc (key : List Bool) {b : List Bool} (h : b.length = 64) : dec key (enc key b) = b := cipher_reverse _ h

theorem enc_dec (key : List Bool) {b : List Bool} (h : b.length = 64) : enc key (dec key b) = b := by
  have := cipher_reverse (keys key).reverse h
  rwa [List.reverse_reverse] at this

/-! ### Complementation -/

/-- All bits flipped. -/
def cpl (b : List Bool) : List Bool := b.map (!·)

theorem cpl_cpl (b : List Bool) : cpl (cpl b) = b := by simp [cpl, Function.comp_def]

theorem perm_cpl {t : List Nat} {b : List Bool} (h : ∀ i ∈ t, i - 1 < b.length) : perm t (cpl b) = cpl (perm t b) := by
  rw [perm, perm, cpl, cpl, List.map_map]
  apply List.map_congr_left
  intro i hi
  have := h i hi
  simp only [Function.comp]
  rw [List.getD_eq_getElem?_getD, List.getElem?_map, List.getElem?_eq_getElem this, List.getD_eq_getElem?_getD,
    List.getElem?_eq_getElem this]
  rfl

theorem xor_cpl_left : ∀ (a b : List Bool), DesS.xor (cpl a) b = cpl (DesS.xor a b)
  | [], _ => rfl
  | _ :: _, [] => rfl
  | x :: a, y :: b => by
    have := xor_cpl_left a b
    simp only [DesS.xor, cpl, List.map_cons, List.zipWith_cons_cons] at this ⊢
    rw [this]
    cases x <;> cases y <;> rfl

theorem xor_cpl_right : ∀ (a b : List Bool), DesS.xor a (cpl b) = cpl (DesS.xor a b)
  | [], _ => rfl
  | _ :: _, [] => rfl
  | x :: a, y :: b => by
    have := xor_cpl_right a b
    simp only [DesS.xor, cpl, List.map_cons, List.zipWith_cons_cons] at this ⊢
    rw [this]
    cases x <;> cases y <;> rfl

theorem f_cpl {r k : List Bool} (hr : r.length = 32) : DesS.f (cpl r) (cpl k) = DesS.f r k := by
  have he : ∀ i ∈ expand, i - 1 < 32 := by decide +kernel
  unfold DesS.f
  rw [perm_cpl (by rw [hr]; exact he), xor_cpl_left, xor_cpl_right, cpl_cpl]

theorem rounds_cpl : ∀ (ks : List (List Bool)) (l r : List Bool), l.length = 32 → r.length = 32 →
    (ks.map cpl).foldl DesS.round (cpl l, cpl r) =
      (cpl (ks.foldl DesS.round (l, r)).1, cpl (ks.foldl DesS.round (l, r)).2)
  | [], l, r, _, _ => rfl
  | k :: ks, l, r, hl, hr => by
    have hx : (DesS.xor l (DesS.f r k)).length = 32 := by rw [xor_length (by rw [hl, f_length]), hl]
    have ih := rounds_cpl ks r _ hr hx
    rw [List.map_cons, List.foldl_cons, List.foldl_cons,
      show DesS.round (cpl l, cpl r) (cpl k) = (cpl r, DesS.xor (cpl l) (DesS.f (cpl r) (cpl k))) from rfl, f_cpl hr,
      xor_cpl_left, ih]
    rfl

theorem cpl_append (a b : List Bool) : cpl (a ++ b) = cpl a ++ cpl b := List.map_append
theorem cpl_length (a : List Bool) : (cpl a).length = a.length := List.length_map _

theorem cipher_cpl (ks : List (List Bool)) {b : List Bool} (hb : b.length = 64) :
    cipher (ks.map cpl) (cpl b) = cpl (cipher ks b) := by
  have hip : ∀ i ∈ ip, i - 1 < 64 := by decide +kernel
  have hii : ∀ i ∈ ipInv, i - 1 < 64 := by decide +kernel
  have hx : (perm ip b).length = 64 := by rw [perm_length]; rfl
  have hl : ((perm ip b).take 32).length = 32 := by rw [List.length_take, hx]; rfl
  have hr : ((perm ip b).drop 32).length = 32 := by rw [List.length_drop, hx]
  obtain ⟨h1, h2⟩ := rounds_length ks _ _ hl hr
  have h := rounds_cpl ks _ _ hl hr
  unfold cipher
  dsimp only
  rw [perm_cpl (by rw [hb]; exact hip), show (cpl (perm ip b)).take 32 = cpl ((perm ip b).take 32) from
    (List.map_take ..).symm, show (cpl (perm ip b)).drop 32 = cpl ((perm ip b).drop 32) from (List.map_drop ..).symm, h]
  dsimp only
  rw [← cpl_append, perm_cpl]
  rw [List.length_append, h1, h2]
  exact hii

theorem rotate_cpl (l : List Bool) (n : Nat) : (cpl l).rotate n = cpl (l.rotate n) := (List.map_rotate _ _ _).symm

theorem subkey_cpl {key : List Bool} (hk : key.length = 64) (n : Nat) : subkey (cpl key) n = cpl (subkey key n) := by
  have hc : ∀ i ∈ pc1C, i - 1 < 64 := by decide +kernel
  have hd : ∀ i ∈ pc1D, i - 1 < 64 := by decide +kernel
  have h2 : ∀ i ∈ pc2, i - 1 < 56 := by decide +kernel
  unfold subkey
  dsimp only
  rw [perm_cpl (by rw [hk]; exact hc), perm_cpl (by rw [hk]; exact hd), rotate_cpl, rotate_cpl, ← cpl_append, perm_cpl]
  rw [List.length_append, List.length_rotate, List.length_rotate, perm_length, perm_length]
  exact h2

theorem enc_cpl {key b : List Bool} (hk : key.length = 64) (hb : b.length = 64) :
    enc (cpl key) (cpl b) = cpl (enc key b) := by
  rw [enc, enc, ← cipher_cpl _ hb, keys, keys, List.map_map]
  congr 1
  apply List.map_congr_left
  intro n _
  exact subkey_cpl hk n

theorem dec_cpl {key b : List Bool} (hk : key.length = 64) (hb : b.length = 64) :
    dec (cpl key) (cpl b) = cpl (dec key b) := by
  rw [dec, dec, ← cipher_cpl _ hb, keys, keys, List.map_reverse, List.map_map]
  congr 2
  apply List.map_congr_left
  intro n _
  exact subkey_cpl hk n

theorem bits_not (l : List Byte) : bits (l.map (~~~ ·)) = cpl (bits l) := by
  induction l with
  | nil => rfl
  | cons b l ih => rw [List.map_cons, bits_cons, bits_cons, cpl_append, ih]; simp [byteBits, cpl]

end Verif.Des
