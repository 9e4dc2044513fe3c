import Verif.Lemmas.Ram.CbcDec
/-!
# C78: CBC on buffers in memory
-/
namespace Verif.Ram
open Verif.Modes (xorB cbcEnc cbcDec Blocks xorB_length xorB_comm toyE toyD)

variable {E D : List Byte → List Byte}

/-- C78: encryption.  The output may start at or before the input (in particular in place) or behind its end.  Exactly the
ciphertext of the whole blocks and the new chaining value are written. -/
theorem ram_cbc_encrypt {k : Nat} (hk : k ≤ 4) (hE : ∀ b, b.length = 2 ^ k → (E b).length = 2 ^ k) (R : Ram)
    (ctx d s size : Nat) (hsz : size < 2 ^ 64) (bs : List (List Byte)) (hb : ∀ b ∈ bs, b.length = 2 ^ k)
    (hn : bs.length = size / 2 ^ k) (e : R.bytes s (bs.length * 2 ^ k) = bs.flatten)
    (ho : AllOwned R [(ctx, 2 ^ k), (s, bs.length * 2 ^ k), (d, bs.length * 2 ^ k)])
    (hs : Apart ctx (2 ^ k) s (bs.length * 2 ^ k)) (hd : Apart ctx (2 ^ k) d (bs.length * 2 ^ k))
    (hp : d ≤ s ∨ s + bs.length * 2 ^ k ≤ d) :
    ∃ R', cbcEncrypt E (2 ^ k) ctx R d s size = some R' ∧
      Wrote R R' [(d, (cbcEnc E (R.bytes ctx (2 ^ k)) bs).flatten),
        (ctx, (cbcEnc E (R.bytes ctx (2 ^ k)) bs).getLastD (R.bytes ctx (2 ^ k)))] [] := by
  simp only [AllOwned, List.mem_cons, List.not_mem_nil, or_false, forall_eq_or_imp, forall_eq] at ho
  obtain ⟨o1, o2, o3⟩ := ho
  have hil : (R.bytes ctx (2 ^ k)).length = 2 ^ k := bytes_length _ _
  have hll := Modes.getLastD_length (Modes.cbcEnc_blocks hE hil hb).1 hil
  have hfl : (cbcEnc E (R.bytes ctx (2 ^ k)) bs).flatten.length = bs.length * 2 ^ k := by
    rw [(Modes.cbcEnc_blocks hE hil hb).1.length, (Modes.cbcEnc_blocks hE hil hb).2]
  refine ⟨_, cbcEncrypt_ram hk hE hsz hb hn o1 o2 o3 hs hd hp rfl e, rfl, rfl, ?_, ?_⟩
  · simp only [List.mem_cons, List.not_mem_nil, or_false, forall_eq_or_imp, forall_eq]
    unfold Apart at hd
    exact ⟨by rw [bytes_put_apart (by apt), bytes_put_same rfl], bytes_put_same rfl⟩
  · intro x h1 h2
    simp only [List.mem_cons, List.not_mem_nil, or_false, forall_eq_or_imp, forall_eq, Outside] at h1
    rw [put_mem_out (by omega), put_mem_out (by omega)]

/-- C78: decryption between buffers that do not overlap. -/
theorem ram_cbc_decrypt_out {k : Nat} (hk : k ≤ 4) (hD : ∀ b, b.length = 2 ^ k → (D b).length = 2 ^ k) (R : Ram)
    (ctx d s size fb iv : Nat) (heap : Option Nat) (hsz : size < 2 ^ 64) (bs : List (List Byte))
    (hb : ∀ b ∈ bs, b.length = 2 ^ k) (hne : bs ≠ []) (hn : bs.length = size / 2 ^ k)
    (e : R.bytes s (bs.length * 2 ^ k) = bs.flatten)
    (ho : AllOwned R [(ctx, 2 ^ k), (s, bs.length * 2 ^ k), (d, bs.length * 2 ^ k)])
    (ha : AllApart [(ctx, 2 ^ k), (d, bs.length * 2 ^ k), (s, bs.length * 2 ^ k)]) :
    ∃ R', cbcDecrypt D (2 ^ k) ctx heap fb iv R d s size = some R' ∧
      Wrote R R' [(d, (cbcDec D (R.bytes ctx (2 ^ k)) bs).flatten), (ctx, bs.getLastD (R.bytes ctx (2 ^ k)))] [] := by
  simp only [AllOwned, List.mem_cons, List.not_mem_nil, or_false, forall_eq_or_imp, forall_eq] at ho
  obtain ⟨o1, o2, o3⟩ := ho
  simp only [AllApart, List.pairwise_cons, List.mem_cons, List.not_mem_nil, or_false, forall_eq_or_imp, forall_eq] at ha
  exact cbcDecrypt_out hk hD hsz hb hne hn o1 o2 o3 ha.1.2 ha.1.1 ha.2.1 rfl e

/-- C78: decryption in place with a scratch buffer from `malloc`; it is given back. -/
theorem ram_cbc_decrypt_in {k : Nat} (hk : k ≤ 4) (hD : ∀ b, b.length = 2 ^ k → (D b).length = 2 ^ k) (R : Ram)
    (ctx d size fb iv buf : Nat) (hsz : size < 2 ^ 64) (bs : List (List Byte))
    (hb : ∀ b ∈ bs, b.length = 2 ^ k) (hne : bs ≠ []) (hn : bs.length = size / 2 ^ k)
    (e : R.bytes d (bs.length * 2 ^ k) = bs.flatten)
    (ho : AllOwned R [(ctx, 2 ^ k), (d, bs.length * 2 ^ k), (iv, 2 ^ k)])
    (hf : ∀ i < min (bs.length * 2 ^ k) 512, R.own (buf + i) = false)
    (ha : AllApart [(ctx, 2 ^ k), (d, bs.length * 2 ^ k), (iv, 2 ^ k)]) :
    ∃ R', cbcDecrypt D (2 ^ k) ctx (some buf) fb iv R d d size = some R' ∧
      Wrote R R' [(d, (cbcDec D (R.bytes ctx (2 ^ k)) bs).flatten), (ctx, bs.getLastD (R.bytes ctx (2 ^ k)))]
        [(buf, min (bs.length * 2 ^ k) 512), (iv, 2 ^ k)] := by
  simp only [AllOwned, List.mem_cons, List.not_mem_nil, or_false, forall_eq_or_imp, forall_eq] at ho
  obtain ⟨o1, o2, o3⟩ := ho
  simp only [AllApart, List.pairwise_cons, List.mem_cons, List.not_mem_nil, or_false, forall_eq_or_imp, forall_eq] at ha
  exact cbcDecrypt_in_heap hk hD hsz hb hne hn o1 o2 o3 hf ha.1.1 ha.1.2 ha.2.1 rfl e

/-- C78: decryption in place when `malloc` fails, with the local array of 16 bytes. -/
theorem ram_cbc_decrypt_in_nomem {k : Nat} (hk : k ≤ 4) (hD : ∀ b, b.length = 2 ^ k → (D b).length = 2 ^ k) (R : Ram)
    (ctx d size fb iv : Nat) (hsz : size < 2 ^ 64) (bs : List (List Byte))
    (hb : ∀ b ∈ bs, b.length = 2 ^ k) (hne : bs ≠ []) (hn : bs.length = size / 2 ^ k)
    (e : R.bytes d (bs.length * 2 ^ k) = bs.flatten)
    (ho : AllOwned R [(ctx, 2 ^ k), (d, bs.length * 2 ^ k), (fb, 16), (iv, 2 ^ k)])
    (ha : AllApart [(ctx, 2 ^ k), (d, bs.length * 2 ^ k), (fb, 16), (iv, 2 ^ k)]) :
    ∃ R', cbcDecrypt D (2 ^ k) ctx none fb iv R d d size = some R' ∧
      Wrote R R' [(d, (cbcDec D (R.bytes ctx (2 ^ k)) bs).flatten), (ctx, bs.getLastD (R.bytes ctx (2 ^ k)))]
        [(fb, 16), (iv, 2 ^ k)] := by
  simp only [AllOwned, List.mem_cons, List.not_mem_nil, or_false, forall_eq_or_imp, forall_eq] at ho
  obtain ⟨o1, o2, o3, o4⟩ := ho
  simp only [AllApart, List.pairwise_cons, List.mem_cons, List.not_mem_nil, or_false, forall_eq_or_imp, forall_eq] at ha
  obtain ⟨⟨a1, a2, a3⟩, ⟨a4, a5⟩, a6, -⟩ := ha
  exact cbcDecrypt_in_fallback hk hD hsz hb hne hn o1 o2 o3 o4 a1 a2 a3 a4 a5 a6 rfl e

/-- C78 (with the restriction to at least one block and buffers that do not overlap or are equal): encrypting a buffer in
place and decrypting it in place from the same chaining value gives the message back, and nothing else but the chaining
value and local arrays has changed. -/
theorem ram_cbc_roundtrip_partial {k : Nat} (hk : k ≤ 4) (hE : ∀ b, b.length = 2 ^ k → (E b).length = 2 ^ k)
    (hDl : ∀ b, b.length = 2 ^ k → (D b).length = 2 ^ k) (hD : ∀ b, b.length = 2 ^ k → D (E b) = b) (R : Ram)
    (ctx d n fb iv buf : Nat) (hsz : n * 2 ^ k < 2 ^ 64) (hn : 0 < n)
    (ho : AllOwned R [(ctx, 2 ^ k), (d, n * 2 ^ k), (iv, 2 ^ k)])
    (hf : ∀ i < min (n * 2 ^ k) 512, R.own (buf + i) = false)
    (ha : AllApart [(ctx, 2 ^ k), (d, n * 2 ^ k), (iv, 2 ^ k)]) :
    ∃ R1 R2, cbcEncrypt E (2 ^ k) ctx R d d (n * 2 ^ k) = some R1 ∧
      cbcDecrypt D (2 ^ k) ctx (some buf) fb iv (R1.put ctx (R.bytes ctx (2 ^ k))) d d (n * 2 ^ k) = some R2 ∧
      R2.bytes ctx (2 ^ k) = R1.bytes ctx (2 ^ k) ∧
      Wrote R R2 [(d, R.bytes d (n * 2 ^ k))] [(ctx, 2 ^ k), (buf, min (n * 2 ^ k) 512), (iv, 2 ^ k)] := by
  have hc := Nat.two_pow_pos k
  obtain ⟨bs, hb, hfl⟩ := Modes.exists_blocks (c := 2 ^ k) (l := R.bytes d (n * 2 ^ k))
    (by rw [bytes_length]; exact Dvd.intro_left _ rfl)
  replace hfl := hfl.symm
  have hbl : bs.length = n := by
    have h1 := congrArg List.length hfl
    rw [bytes_length, Blocks.length hb] at h1
    exact Nat.eq_of_mul_eq_mul_right hc h1.symm
  subst hbl
  have hne : bs ≠ [] := List.length_pos_iff.1 hn
  have ha' := ha
  simp only [AllOwned, List.mem_cons, List.not_mem_nil, or_false, forall_eq_or_imp, forall_eq] at ho
  obtain ⟨o1, o2, o3⟩ := ho
  simp only [AllApart, List.pairwise_cons, List.mem_cons, List.not_mem_nil, or_false, forall_eq_or_imp, forall_eq] at ha
  obtain ⟨⟨a1, a2⟩, a3, -⟩ := ha
  obtain ⟨R1, h1, w1⟩ := ram_cbc_encrypt hk hE R ctx d d (bs.length * 2 ^ k) hsz bs hb (by rw [Nat.mul_div_cancel _ hc]) hfl
    (by simp only [AllOwned, List.mem_cons, List.not_mem_nil, or_false, forall_eq_or_imp, forall_eq]; exact ⟨o1, o2, o2⟩)
    a1 a1 (Or.inl (Nat.le_refl _))
  have hil : (R.bytes ctx (2 ^ k)).length = 2 ^ k := bytes_length _ _
  obtain ⟨e1, e2⟩ := Modes.cbcEnc_blocks hE hil hb
  have hye : (cbcEnc E (R.bytes ctx (2 ^ k)) bs).flatten.length = bs.length * 2 ^ k := by rw [e1.length, e2]
  have hyne : cbcEnc E (R.bytes ctx (2 ^ k)) bs ≠ [] := by
    intro e; rw [e] at e2; exact hne (List.length_eq_zero_iff.1 e2.symm)
  have hll := Modes.getLastD_length e1 hil
  have hw := w1.at_
  simp only [List.mem_cons, List.not_mem_nil, or_false, forall_eq_or_imp, forall_eq] at hw
  obtain ⟨w2, w3⟩ := hw
  rw [hye] at w2
  rw [hll] at w3
  generalize hv : R.bytes ctx (2 ^ k) = v at *
  have hO : ∀ a n, R.Owned a n → (R1.put ctx v).Owned a n := fun a n h i hi => by
    show R1.own (a + i) = true
    rw [w1.own]; exact h i hi
  have a1' := a1
  unfold Apart at a1'
  obtain ⟨R2, h2, w4⟩ := ram_cbc_decrypt_in hk hDl (R1.put ctx v) ctx d (bs.length * 2 ^ k) fb iv buf hsz _ e1 hyne
    (by rw [e2, Nat.mul_div_cancel _ hc])
    (by rw [e2, bytes_put_apart (by rw [hil]; exact a1), w2])
    (by
      rw [e2]
      simp only [AllOwned, List.mem_cons, List.not_mem_nil, or_false, forall_eq_or_imp, forall_eq]
      exact ⟨hO _ _ o1, hO _ _ o2, hO _ _ o3⟩)
    (by
      rw [e2]
      intro i hi
      show R1.own (buf + i) = false
      rw [w1.own]; exact hf i hi)
    (by rw [e2]; exact ha')
  rw [bytes_put_same hil, Modes.cbcDec_enc hE hD hil hb, e2] at w4
  have hw := w4.at_
  simp only [List.mem_cons, List.not_mem_nil, or_false, forall_eq_or_imp, forall_eq] at hw
  obtain ⟨w5, w6⟩ := hw
  rw [hll] at w6
  refine ⟨R1, R2, h1, h2, by rw [w6, w3], w4.own.trans w1.own, w4.tmp.trans w1.tmp, ?_, ?_⟩
  · simp only [List.mem_cons, List.not_mem_nil, or_false, forall_eq]
    rw [hfl]
    exact w5
  · intro x k1 k2
    have hbf := Blocks.length hb
    simp only [List.mem_cons, List.not_mem_nil, or_false, forall_eq_or_imp, forall_eq, Outside] at k1 k2
    rw [hfl] at k1
    rw [w4.else_ x, put_mem_out (by omega), w1.else_ x]
    · simp only [List.mem_cons, List.not_mem_nil, or_false, forall_eq_or_imp, forall_eq, Outside]
      omega
    · simp
    · simp only [List.mem_cons, List.not_mem_nil, or_false, forall_eq_or_imp, forall_eq, Outside]
      omega
    · simp only [List.mem_cons, List.not_mem_nil, or_false, forall_eq_or_imp, forall_eq, Outside]
      omega

/-- A memory for examples: the first 200 bytes may be accessed. -/
def exRam : Ram := { own := fun x => decide (x < 200), mem := fun x => BitVec.ofNat 8 (7 * x) }

theorem exRam_owned {a n : Nat} (h : a + n ≤ 200) : exRam.Owned a n := by
  intro i hi
  simp only [exRam, decide_eq_true_eq]
  omega

/-- Concrete case: a message of 24 bytes at 0, the chaining value at 100, eight-byte blocks. -/
example : ∃ R1 R2 : Ram, cbcEncrypt toyE 8 100 exRam 0 0 24 = some R1 ∧
    cbcDecrypt toyD 8 100 (some 1000) 180 150 (R1.put 100 (exRam.bytes 100 8)) 0 0 24 = some R2 ∧
    R2.bytes 0 24 = exRam.bytes 0 24 := by
  obtain ⟨R1, R2, h1, h2, -, w⟩ := ram_cbc_roundtrip_partial (E := toyE) (D := toyD) (k := 3) (by omega) (by simp [toyE])
    (by simp [toyD]) (fun b _ => Modes.toy_inv b) exRam 100 0 3 180 150 1000 (by omega) (by omega)
    (by
      simp only [AllOwned, List.mem_cons, List.not_mem_nil, or_false, forall_eq_or_imp, forall_eq]
      exact ⟨exRam_owned (by omega), exRam_owned (by omega), exRam_owned (by omega)⟩)
    (by simp only [exRam, decide_eq_false_iff_not]; omega)
    (by
      simp only [AllApart, List.pairwise_cons, List.mem_cons, List.not_mem_nil, or_false, forall_eq_or_imp, forall_eq, Apart]
      simp)
  exact ⟨R1, R2, h1, h2, by simpa using w.at_ _ (List.mem_singleton.2 rfl)⟩

theorem xorB_self (a : List Byte) : xorB a a = List.replicate a.length 0 := by
  unfold xorB
  induction a with
  | nil => rfl
  | cons x a ih => rw [List.zipWith_cons_cons, ih, BitVec.xor_self]; rfl

/-- C78 fails for an output that starts inside the input: with the output one block behind the start of the input, the
second block of the message is overwritten before it is read, and its ciphertext is that of a block of zeros. -/
theorem ram_cbc_encrypt_ahead {k : Nat} (hk : k ≤ 4) (hE : ∀ b, b.length = 2 ^ k → (E b).length = 2 ^ k) (R : Ram) (ctx s : Nat)
    (ho : AllOwned R [(ctx, 2 ^ k), (s, 3 * 2 ^ k)]) (ha : Apart ctx (2 ^ k) s (3 * 2 ^ k)) :
    ∃ R', cbcEncrypt E (2 ^ k) ctx R (s + 2 ^ k) s (2 * 2 ^ k) = some R' ∧
      R'.bytes (s + 2 ^ k) (2 * 2 ^ k) =
        E (xorB (R.bytes s (2 ^ k)) (R.bytes ctx (2 ^ k))) ++ E (List.replicate (2 ^ k) 0) := by
  simp only [AllOwned, List.mem_cons, List.not_mem_nil, or_false, forall_eq_or_imp, forall_eq] at ho
  obtain ⟨hx, hs⟩ := ho
  have hc := Nat.two_pow_pos k
  have h16 : 2 ^ k ≤ 2 ^ 4 := Nat.pow_le_pow_right (by omega) hk
  unfold Apart at ha
  unfold cbcEncrypt
  dsimp only
  rw [maskSize_blocks hk (by omega), Nat.mul_div_cancel _ hc]
  generalize 2 ^ k = c at *
  obtain ⟨m, rfl⟩ : ∃ m, c = m + 1 := ⟨c - 1, by omega⟩
  rw [show cbcEncLoop E (m + 1) ctx (2 * (m + 1)) R (s + (m + 1)) s (2 * (m + 1)) =
    cbcEncLoop E (m + 1) ctx (2 * m + 1 + 1) R (s + (m + 1)) s (2 * m + 1 + 1) by rfl]
  rw [cbcEncLoop, xor1_eq (by ownof hs) (by ownof hx), Option.bind_some, cipher_one (by ownof hx) (by ownof hs),
    Option.bind_some, memcpy_eq (by ownof hs) (by ownof hx) (by apt), Option.bind_some]
  have hl1 : (xorB (R.bytes ctx (m + 1)) (R.bytes s (m + 1))).length = m + 1 := by
    rw [xorB_length, bytes_length, bytes_length]; omega
  have hl2 := hE _ hl1
  rw [bytes_put_same hl1, bytes_put_same hl2, sub64_eq (by omega) (by omega), show 2 * m + 1 + 1 - (m + 1) = m + 1 by omega,
    cbcEncLoop, xor1_eq (by ownof hs) (by ownof hx), Option.bind_some, cipher_one (by ownof hx) (by ownof hs),
    Option.bind_some, memcpy_eq (by ownof hs) (by ownof hx) (by apt), Option.bind_some, sub64_eq (by omega) (by omega),
    Nat.sub_self, bytes_put_same hl2, bytes_put_apart (b := s + (m + 1)) (by apt), bytes_put_same hl2, xorB_self, hl2]
  have hz := hE (List.replicate (m + 1) 0) (by simp)
  have hrl : (List.replicate (m + 1) (0 : Byte)).length = m + 1 := by simp
  rw [bytes_put_same hrl, bytes_put_same hz]
  refine ⟨_, by rw [cbcEncLoop.eq_def], ?_⟩
  rw [bytes_put_apart (by apt), Nat.two_mul, bytes_add, bytes_put_same hz, bytes_put_apart (by apt), bytes_put_apart (by apt),
    bytes_put_apart (by apt), bytes_put_same hl2, xorB_comm]
  all_goals (intro h; omega)

/-- C78 fails: a concrete message whose ciphertext the overlapping call does not produce. -/
theorem ram_cbc_encrypt_ahead_bad : ∃ R' : Ram, cbcEncrypt toyE 8 100 exRam 8 0 16 = some R' ∧
    R'.bytes 8 16 ≠ (cbcEnc toyE (exRam.bytes 100 8) [exRam.bytes 0 8, exRam.bytes 8 8]).flatten := by
  obtain ⟨R', h1, h2⟩ := ram_cbc_encrypt_ahead (E := toyE) (k := 3) (by omega) (by simp [toyE]) exRam 100 0
    (by
      simp only [AllOwned, List.mem_cons, List.not_mem_nil, or_false, forall_eq_or_imp, forall_eq]
      exact ⟨exRam_owned (by omega), exRam_owned (by omega)⟩) (by decide)
  refine ⟨R', h1, ?_⟩
  rw [show R'.bytes 8 16 = _ from h2]
  decide +kernel

/-- C78 fails for decryption when the output starts one block before the input: the second block comes out as zeros. -/
theorem ram_cbc_decrypt_behind {k : Nat} (hk : k ≤ 4) (hD : ∀ b, b.length = 2 ^ k → (D b).length = 2 ^ k) (R : Ram)
    (ctx d fb iv : Nat) (heap : Option Nat)
    (ho : AllOwned R [(ctx, 2 ^ k), (d, 3 * 2 ^ k)]) (ha : Apart ctx (2 ^ k) d (3 * 2 ^ k)) :
    ∃ R', cbcDecrypt D (2 ^ k) ctx heap fb iv R d (d + 2 ^ k) (2 * 2 ^ k) = some R' ∧
      R'.bytes d (2 * 2 ^ k) =
        xorB (D (R.bytes (d + 2 ^ k) (2 ^ k))) (R.bytes ctx (2 ^ k)) ++ List.replicate (2 ^ k) 0 := by
  simp only [AllOwned, List.mem_cons, List.not_mem_nil, or_false, forall_eq_or_imp, forall_eq] at ho
  obtain ⟨hx, hs⟩ := ho
  have hc := Nat.two_pow_pos k
  have h16 : 2 ^ k ≤ 2 ^ 4 := Nat.pow_le_pow_right (by omega) hk
  unfold Apart at ha
  unfold cbcDecrypt cbcDecOut
  dsimp only
  rw [maskSize_blocks hk (by omega), Nat.mul_div_cancel _ hc, if_pos (by omega), Nat.mul_div_cancel _ hc]
  generalize 2 ^ k = c at *
  rw [show cipher D c 2 R d (d + c) = (cipher D c 1 R d (d + c)).bind fun R => cipher D c 1 R (d + c) (d + c + c) by
    simp only [cipher]
    split <;> rfl]
  have h1 := hD _ (bytes_length (R := R) (d + c) c)
  have h2 := hD _ (bytes_length (R := R) (d + c + c) c)
  have h3 : (xorB (D (R.bytes (d + c) c)) (R.bytes ctx c)).length = c := by rw [xorB_length, h1, bytes_length]; omega
  rw [cipher_one (by ownof hs) (by ownof hs), Option.bind_some, cipher_one (by ownof hs) (by ownof hs), Option.bind_some,
    bytes_put_apart (by apt), xor1_eq (by ownof hx) (by ownof hs), Option.bind_some, bytes_put_apart (b := d) (by apt),
    bytes_put_same h1, bytes_put_apart (b := ctx) (by apt), bytes_put_apart (b := ctx) (by apt),
    sub64_eq (by omega) (by omega), show 2 * c - c = c by omega, xor1_eq (by ownof hs) (by ownof hs), Option.bind_some,
    bytes_put_apart (b := d + c) (by apt), bytes_put_same h2, xorB_self, h2, memcpy_eq (by ownof hs) (by ownof hx) (by apt)]
  refine ⟨_, rfl, ?_⟩
  have hrl : (List.replicate c (0 : Byte)).length = c := by simp
  rw [bytes_put_apart (by rw [bytes_length]; apt), Nat.two_mul, bytes_add, bytes_put_same hrl, bytes_put_apart (by apt),
    bytes_put_same h3]

/-- C78 fails: a concrete ciphertext that the overlapping call does not decrypt. -/
theorem ram_cbc_decrypt_behind_bad : ∃ R' : Ram, cbcDecrypt toyD 8 100 none 180 150 exRam 0 8 16 = some R' ∧
    R'.bytes 0 16 ≠ (cbcDec toyD (exRam.bytes 100 8) [exRam.bytes 8 8, exRam.bytes 16 8]).flatten := by
  obtain ⟨R', h1, h2⟩ := ram_cbc_decrypt_behind (D := toyD) (k := 3) (by omega) (by simp [toyD]) exRam 100 0 180 150 none
    (by
      simp only [AllOwned, List.mem_cons, List.not_mem_nil, or_false, forall_eq_or_imp, forall_eq]
      exact ⟨exRam_owned (by omega), exRam_owned (by omega)⟩) (by decide)
  refine ⟨R', h1, ?_⟩
  rw [show R'.bytes 0 16 = _ from h2]
  decide +kernel

theorem not_owned_mono {R : Ram} {a n m : Nat} (h : ¬ R.Owned a n) (hm : n ≤ m) : ¬ R.Owned a m :=
  fun h' => h fun i hi => h' i (by omega)

/-- C78 fails for decryption of less than a block: the length left after the first block wraps around, so that nearly the
whole address space is accessed from the source on. -/
theorem ram_cbc_decrypt_empty {k : Nat} (hk : k ≤ 4) (R : Ram) (ctx d s size fb iv : Nat) (heap : Option Nat)
    (hsz : size < 2 ^ k) (h : ¬ R.Owned s (2 ^ 64 - 16)) :
    cbcDecrypt D (2 ^ k) ctx heap fb iv R d s size = none := by
  have hc := Nat.two_pow_pos k
  have h16 : 2 ^ k ≤ 2 ^ 4 := Nat.pow_le_pow_right (by omega) hk
  have hsub : sub64 0 (2 ^ k) = 2 ^ 64 - 2 ^ k := by unfold sub64; omega
  have hno : ¬ R.Owned s (sub64 0 (2 ^ k)) := not_owned_mono h (by omega)
  unfold cbcDecrypt
  dsimp only
  rw [maskSize_blocks hk (by omega), Nat.div_eq_of_lt hsz, Nat.zero_mul]
  have hpass : ∀ (R : Ram) buf, (¬ R.Owned s (sub64 0 (2 ^ k))) → cbcInPass D (2 ^ k) ctx buf iv R d s 0 = none := by
    intro R buf hno
    unfold cbcInPass
    rw [Nat.zero_div, cipher, Option.bind_some]
    cases e1 : memcpy R iv ctx (2 ^ k) with
    | none => rfl
    | some R1 =>
      have o1 : R1.own = R.own := by
        unfold memcpy at e1
        split at e1
        · rw [← Option.some.inj e1]; rfl
        · cases e1
      rw [Option.bind_some]
      cases e2 : memcpy R1 ctx (s + 0 - 2 ^ k) (2 ^ k) with
      | none => rfl
      | some R2 =>
        have o2 : R2.own = R1.own := by
          unfold memcpy at e2
          split at e2
          · rw [← Option.some.inj e2]; rfl
          · cases e2
        rw [Option.bind_some, xor2, if_neg]
        · rfl
        · rintro ⟨-, hh, -⟩
          apply hno
          intro i hi
          rw [← o1, ← o2]
          exact hh i hi
  split
  · unfold cbcDecOut
    rw [Nat.zero_div, cipher, Option.bind_some]
    cases e1 : xor1 R d ctx (2 ^ k) with
    | none => rfl
    | some R1 =>
      have o1 : R1.own = R.own := by
        unfold xor1 at e1
        split at e1
        · rw [← Option.some.inj e1]
        · cases e1
      rw [Option.bind_some, xor1, if_neg]
      · rfl
      · rintro ⟨hh, -⟩
        apply hno
        intro i hi
        rw [← o1]
        exact hh i hi
  · have hloop : ∀ (R : Ram) buf m, (¬ R.Owned s (sub64 0 (2 ^ k))) →
        cbcInLoop D (2 ^ k) ctx buf iv m 0 R d s 0 = none := by
      intro R buf m h
      rw [cbcInLoop.eq_def]
      dsimp only
      rw [if_neg (by omega)]
      exact hpass R buf h
    cases heap with
    | none => exact hloop R fb 16 hno
    | some buf =>
      dsimp only
      rw [hloop _ _ _ (by
        intro hh
        apply hno
        intro i hi
        have := hh i hi
        unfold Ram.setOwn at this
        dsimp only at this
        rwa [Nat.zero_min, if_neg (by omega)] at this)]
      rfl

/-- Concrete case: an empty message in a memory of 200 bytes. -/
example : cbcDecrypt toyD 8 100 none 180 150 exRam 0 0 0 = none :=
  ram_cbc_decrypt_empty (k := 3) (by omega) exRam 100 0 0 0 180 150 none (by omega)
    (fun h => absurd (h 200 (by omega)) (by decide))

end Verif.Ram
