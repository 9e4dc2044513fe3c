import Verif.Lemmas.Crypt.AesKey
import Verif.Props.Modes.Wrap
/-!
# C32 (AES), C33 (alternating encryption and decryption on one context)
-/
namespace Verif.Aes
open Verif.AesS (Col State)

/-- The key sizes of the standard. -/
def KeySize (key : List Byte) : Prop := key.length = 16 ∨ key.length = 24 ∨ key.length = 32

/-- C32: setting the key succeeds, and encrypting any number of whole blocks (with fewer than 16 bytes left
over) is FIPS 197 encryption of each block; the context does not change. -/
theorem encrypt_fips {key : List Byte} (hk : KeySize key) (bs : List (List Byte)) (hb : ∀ b ∈ bs, b.length = 16)
    (rest : List Byte) (hr : rest.length < 16) :
    ∃ c, keySet key = some c ∧ encrypt c (bs.flatten ++ rest) = ((bs.map (AesS.encrypt key)).flatten, c) := by
  obtain ⟨c, h1, h2, h3, h4⟩ := keySet_spec hk
  refine ⟨c, h1, ?_⟩
  unfold encrypt
  rw [h3]
  simp only [Bool.false_eq_true, if_false]
  rw [blockLoop_flatten _ bs rest hb hr]
  congr 3
  apply funext
  intro b
  rw [encBlock_spec c _ h4.nr h4.key, h2]
  rfl

/-- C32: decrypting with a freshly keyed context is the FIPS 197 inverse cipher of each block, and so is
every further decryption with the context it leaves. -/
theorem decrypt_fips {key : List Byte} (hk : KeySize key) :
    ∃ c d, keySet key = some c ∧ ∀ (bs : List (List Byte)), (∀ b ∈ bs, b.length = 16) →
      ∀ rest : List Byte, rest.length < 16 →
      decrypt c (bs.flatten ++ rest) = ((bs.map (AesS.decrypt key)).flatten, d) ∧
      decrypt d (bs.flatten ++ rest) = ((bs.map (AesS.decrypt key)).flatten, d) := by
  obtain ⟨c, h1, h2, h3, h4⟩ := keySet_spec hk
  have hd := keyInvert_dkey h4
  refine ⟨c, { keyInvert c with dec := true }, h1, ?_⟩
  intro bs hb rest hr
  have hf : decBlock { keyInvert c with dec := true } = AesS.decrypt key := by
    funext b
    rw [decBlock_spec { keyInvert c with dec := true } (AesS.expand (key.length / 4) (AesS.colAt key)) hd.nr hd.key]
    show AesS.store (AesS.invCipher c.nr _ _) = _
    rw [h2]; rfl
  unfold decrypt
  rw [h3]
  simp only [Bool.false_eq_true, if_false, if_true]
  rw [blockLoop_flatten _ bs rest hb hr, hf]
  exact ⟨rfl, rfl⟩

/-- C32: the standard's cipher and inverse cipher undo each other for every key and block. -/
theorem fips_inverse (key block : List Byte) (hb : block.length = 16) :
    AesS.decrypt key (AesS.encrypt key block) = block ∧ AesS.encrypt key (AesS.decrypt key block) = block ∧
    (AesS.encrypt key block).length = 16 ∧ (AesS.decrypt key block).length = 16 := by
  unfold AesS.decrypt AesS.encrypt
  dsimp only
  rw [load_store, load_store, invCipher_cipher, cipher_invCipher, store_load hb]
  exact ⟨rfl, rfl, store_length _, store_length _⟩

/-- C32: decrypting with a freshly keyed context restores every encrypted message of whole blocks. -/
theorem decrypt_encrypt {key : List Byte} (hk : KeySize key) (msg : List Byte) (hm : 16 ∣ msg.length) :
    ∃ c, keySet key = some c ∧ (encrypt c msg).1.length = msg.length ∧
      (decrypt c (encrypt c msg).1).1 = msg ∧ (encrypt c (decrypt c msg).1).1 = msg := by
  obtain ⟨bs, hb, rfl⟩ := Modes.exists_blocks hm
  obtain ⟨c, h1, he⟩ := encrypt_fips hk bs hb [] (by simp)
  obtain ⟨c', d, h1', hd⟩ := decrypt_fips hk
  have hcc : c' = c := by rw [h1] at h1'; exact (Option.some.inj h1').symm
  subst hcc
  have hd1 := (hd bs hb [] (by simp)).1
  rw [List.append_nil] at he hd1
  have hbe : Modes.Blocks 16 (bs.map (AesS.encrypt key)) := by
    intro b h
    obtain ⟨a, ha, rfl⟩ := List.mem_map.1 h
    exact (fips_inverse key a (hb a ha)).2.2.1
  have hbd : Modes.Blocks 16 (bs.map (AesS.decrypt key)) := by
    intro b h
    obtain ⟨a, ha, rfl⟩ := List.mem_map.1 h
    exact (fips_inverse key a (hb a ha)).2.2.2
  refine ⟨c', h1, ?_, ?_, ?_⟩
  · rw [he, hbe.length, (show Modes.Blocks 16 bs from hb).length, List.length_map]
  · have := (hd _ hbe [] (by simp)).1
    rw [List.append_nil] at this
    rw [he, this, List.map_map]
    conv_rhs => rw [← List.map_id bs]
    exact congrArg List.flatten (List.map_congr_left (fun b h => (fips_inverse key b (hb b h)).1))
  · obtain ⟨c2, h2, he2⟩ := encrypt_fips hk _ hbd [] (by simp)
    have hcc : c2 = c' := by rw [h1] at h2; exact (Option.some.inj h2).symm
    subst hcc
    rw [List.append_nil] at he2
    rw [hd1, he2, List.map_map]
    conv_rhs => rw [← List.map_id bs]
    exact congrArg List.flatten (List.map_congr_left (fun b h => (fips_inverse key b (hb b h)).2.1))

/-- A key shorter than 16 bytes is read beyond its end. -/
theorem keySet_short {key : List Byte} (h : key.length < 16) : keySet key = none := by
  rw [keySet, if_pos h]

-- FIPS 197, appendix C: 128, 192 and 256 bits
example : KeySize ((List.range 24).map (BitVec.ofNat 8)) := by simp [KeySize]
example : ((keySet ((List.range 16).map (BitVec.ofNat 8))).map fun c =>
    (encrypt c ((List.range 16).map fun i => BitVec.ofNat 8 (0x11 * i))).1) =
    some [0x69, 0xc4, 0xe0, 0xd8, 0x6a, 0x7b, 0x04, 0x30, 0xd8, 0xcd, 0xb7, 0x80, 0x70, 0xb4, 0xc5, 0x5a] := by
  decide +kernel
example : ((keySet ((List.range 24).map (BitVec.ofNat 8))).map fun c =>
    (decrypt c [0xdd, 0xa9, 0x7c, 0xa4, 0x86, 0x4c, 0xdf, 0xe0, 0x6e, 0xaf, 0x70, 0xa0, 0xec, 0x0d, 0x71, 0x91]).1) =
    some ((List.range 16).map fun i => BitVec.ofNat 8 (0x11 * i)) := by decide +kernel
example : ((keySet ((List.range 32).map (BitVec.ofNat 8))).map fun c =>
    (encrypt c ((List.range 16).map fun i => BitVec.ofNat 8 (0x11 * i))).1) =
    some [0x8e, 0xa2, 0xb7, 0xca, 0x51, 0x67, 0x45, 0xbf, 0xea, 0xfc, 0x49, 0x90, 0x4b, 0x49, 0x60, 0x89] := by
  decide +kernel

/-! ### C33 -/

/-- A call on a context: encryption (`true`) or decryption of some data. -/
def call (c : Ctx) (op : Bool × List Byte) : Ctx := if op.1 then (encrypt c op.2).2 else (decrypt c op.2).2

/-- How often a sequence of calls changes direction, starting after an encryption (`d = false`) or a
decryption (`d = true`). -/
def switches : Bool → List (Bool × List Byte) → Nat
  | _, [] => 0
  | d, op :: ops => (if op.1 = d then 1 else 0) + switches (!op.1) ops

/-- The claim C33: after any calls, encryption gives the standard's result. -/
def Alternates (key : List Byte) : Prop :=
  ∀ c, keySet key = some c → ∀ (hist : List (Bool × List Byte)) (block : List Byte), block.length = 16 →
    (encrypt (hist.foldl call c) block).1 = AesS.encrypt key block

/-- The schedule `wk` after `n` key inversions. -/
def sched (nr : Nat) (wk : Nat → Col) : Nat → Nat → Col
  | 0 => wk
  | n + 1 => dkey nr (sched nr wk n)

theorem sched_add (nr : Nat) (wk : Nat → Col) (m : Nat) : ∀ n, sched nr wk (m + n) = sched nr (sched nr wk m) n
  | 0 => rfl
  | n + 1 => by rw [← Nat.add_assoc, sched, sched, sched_add nr wk m n]

theorem hist_state {c0 : Ctx} {wk : Nat → Col} (h0 : Keyed c0 wk) (hd0 : c0.dec = false) :
    ∀ (hist : List (Bool × List Byte)) (n : Nat) (c : Ctx), Keyed c (sched c0.nr wk n) →
    c.nr = c0.nr → (c.dec = true ↔ n % 2 = 1) →
    let c' := hist.foldl call c
    let n' := n + switches c.dec hist
    Keyed c' (sched c0.nr wk n') ∧ c'.nr = c0.nr ∧ (c'.dec = true ↔ n' % 2 = 1)
  | [], n, c, hk, hn, hp => ⟨hk, hn, hp⟩
  | (op, x) :: hist, n, c, hk, hn, hp => by
    have hinv : ∀ b, Keyed { keyInvert c with dec := b } (sched c0.nr wk (n + 1)) := by
      intro b
      have := keyInvert_dkey hk
      rw [hn] at this
      exact ⟨this.nr, this.len, this.key⟩
    rw [List.foldl_cons, switches]
    cases op with
    | true =>
      cases hd : c.dec with
      | true =>
        have e : call c (true, x) = { keyInvert c with dec := false } := by simp [call, encrypt, hd]
        have hp' := hp.1 hd
        have := hist_state h0 hd0 hist (n + 1) { keyInvert c with dec := false } (hinv false) hn
          (by constructor
              · intro h; cases h
              · intro h; omega)
        rw [e]
        simpa [Nat.add_assoc] using this
      | false =>
        have e : call c (true, x) = c := by simp [call, encrypt, hd]
        have := hist_state h0 hd0 hist n c hk hn hp
        rw [e]
        simpa [hd] using this
    | false =>
      cases hd : c.dec with
      | true =>
        have e : call c (false, x) = c := by simp [call, decrypt, hd]
        have := hist_state h0 hd0 hist n c hk hn hp
        rw [e]
        simpa [hd] using this
      | false =>
        have e : call c (false, x) = { keyInvert c with dec := true } := by simp [call, decrypt, hd]
        have hp' : ¬ n % 2 = 1 := fun h => by rw [hp.2 h] at hd; cases hd
        have := hist_state h0 hd0 hist (n + 1) { keyInvert c with dec := true } (hinv true) hn
          (by constructor
              · intro _; omega
              · intro _; rfl)
        rw [e]
        simpa [Nat.add_assoc] using this

/-- The schedule after `n` key inversions has period four. -/
theorem sched_period (nr : Nat) (wk : Nat → Col) : ∀ (q : Nat) (j : Nat), j < 4 * (nr + 1) →
    sched nr wk (4 * q) j = wk j
  | 0, _, _ => rfl
  | q + 1, j, hj => by
    show dkey nr (dkey nr (dkey nr (dkey nr (sched nr wk (4 * q))))) j = wk j
    rw [dkey_dkey _ _ hj, dkey_dkey _ _ hj, sched_period nr wk q j hj]
    split_ifs
    · rw [imc2_imc2]
    · rfl

/-- C33, what holds: after any calls with `4q` changes of direction (counting the one the call itself makes),
encryption is right; with `4q + 2` changes it uses a schedule in which every inner round key has gone twice
through InvMixColumns. In particular it is right as long as nothing has been decrypted. -/
theorem encrypt_history_partial {key : List Byte} (hk : KeySize key) {c : Ctx} (hc : keySet key = some c)
    (hist : List (Bool × List Byte)) (block : List Byte) (hb : block.length = 16) :
    (switches false (hist ++ [(true, block)]) % 4 = 0 →
      (encrypt (hist.foldl call c) block).1 = AesS.encrypt key block) ∧
    (switches false (hist ++ [(true, block)]) % 4 = 2 →
      (encrypt (hist.foldl call c) block).1 =
        AesS.store (AesS.cipher c.nr (fun j =>
          if 4 ≤ j ∧ j < 4 * c.nr then AesS.invMixCol (AesS.invMixCol (AesS.expand (key.length / 4) (AesS.colAt key) j))
          else AesS.expand (key.length / 4) (AesS.colAt key) j) (AesS.load block))) := by
  obtain ⟨c', h1, h2, h3, h4⟩ := keySet_spec hk
  have hcc : c' = c := by rw [hc] at h1; exact (Option.some.inj h1).symm
  subst hcc
  have hs := hist_state h4 h3 (hist ++ [(true, block)]) 0 c' h4 rfl (by rw [h3]; simp)
  rw [List.foldl_append, List.foldl_cons, List.foldl_nil, h3, Nat.zero_add] at hs
  obtain ⟨s1, s2, s3⟩ := hs
  have henc : (encrypt (hist.foldl call c') block).1 = encBlock (call (hist.foldl call c') (true, block)) block := by
    have : encrypt (hist.foldl call c') block =
        (blockLoop (encBlock (call (hist.foldl call c') (true, block))) block, call (hist.foldl call c') (true, block)) := rfl
    rw [this]
    have hbl := blockLoop_flatten (encBlock (call (hist.foldl call c') (true, block))) [block] [] (by simpa using hb) (by simp)
    simpa using hbl
  rw [henc]
  generalize call (hist.foldl call c') (true, block) = C at *
  generalize switches false (hist ++ [(true, block)]) = N at *
  have hper : ∀ q r, N = 4 * q + r → ∀ j, j < 4 * (C.nr + 1) →
      sched c'.nr (AesS.expand (key.length / 4) (AesS.colAt key)) N j =
      sched c'.nr (sched c'.nr (AesS.expand (key.length / 4) (AesS.colAt key)) (4 * q)) r j := by
    intro q r hN j _
    rw [hN, sched_add]
  constructor
  · intro hN
    have hk' := keyed_congr s1 (wk' := AesS.expand (key.length / 4) (AesS.colAt key)) (by
      intro j hj
      rw [hper (N / 4) 0 (by omega) j hj]
      rw [s2] at hj
      exact sched_period _ _ _ _ hj)
    rw [encBlock_spec C _ hk'.nr hk'.key, s2, h2]
    rfl
  · intro hN
    have hk' := keyed_congr s1 (wk' := fun j =>
          if 4 ≤ j ∧ j < 4 * c'.nr then AesS.invMixCol (AesS.invMixCol (AesS.expand (key.length / 4) (AesS.colAt key) j))
          else AesS.expand (key.length / 4) (AesS.colAt key) j) (by
      intro j hj
      rw [hper (N / 4) 2 (by omega) j hj]
      rw [s2] at hj
      show dkey c'.nr (dkey c'.nr _) j = _
      rw [dkey_dkey _ _ hj, sched, sched_period _ _ _ _ hj, invMixCol_twice])
    rw [encBlock_spec C _ hk'.nr hk'.key, s2]

/-- C33 is false as stated: encrypt, decrypt, encrypt on one context gives two different ciphertexts of the
same block (here for the 128-bit key of FIPS 197, appendix C). -/
theorem alternation_wrong : ¬ ∀ key, KeySize key → Alternates key := by
  intro h
  have hk : KeySize ((List.range 16).map (BitVec.ofNat 8)) := by simp [KeySize]
  obtain ⟨c, hc, -⟩ := keySet_spec hk
  have h1 := h _ hk c hc [(false, List.replicate 16 0)] (List.replicate 16 0) (by simp)
  have h2 := h _ hk c hc [] (List.replicate 16 0) (by simp)
  have h3 := h1.trans h2.symm
  have hw : (keySet ((List.range 16).map (BitVec.ofNat 8))).map (fun c =>
      decide ((encrypt ([(false, List.replicate 16 0)].foldl call c) (List.replicate 16 0)).1 =
        (encrypt (List.foldl call c []) (List.replicate 16 0)).1)) = some false := by decide +kernel
  rw [hc, Option.map_some] at hw
  rw [decide_eq_true h3] at hw
  cases hw

example : switches false [(true, []), (false, []), (true, []), (false, []), (true, [])] = 4 := rfl

/-! ### C31 with AES -/

/-- C31: key wrap with the library's AES, for every key-encryption key and every payload of at least one
block; unwrapping any other string of `n + 8` bytes fails and clears the output. -/
theorem aes_wrap_roundtrip {key : List Byte} (hk : KeySize key) :
    ∃ c, keySet key = some c ∧
      let E := fun b => (encrypt c b).1
      let D := fun b => (decrypt c b).1
      (∀ p : List Byte, 8 ≤ p.length → Modes.aesUnwrap D (Modes.aesWrap E p) = some (0, p)) ∧
      (∀ x : List Byte, 16 ≤ x.length →
        (∃ p, p.length = x.length - 8 ∧ x = Modes.aesWrap E p ∧ Modes.aesUnwrap D x = some (0, p)) ∨
        ((∀ p, 8 ≤ p.length → x ≠ Modes.aesWrap E p) ∧
          Modes.aesUnwrap D x = some (-1, List.replicate (x.length - 8) 0))) := by
  obtain ⟨c, d, h1, hd⟩ := decrypt_fips hk
  refine ⟨c, h1, ?_⟩
  intro E D
  have hE : ∀ b : List Byte, b.length = 16 → E b = AesS.encrypt key b := by
    intro b hb
    obtain ⟨c2, h2, he⟩ := encrypt_fips hk [b] (by simpa using hb) [] (by simp)
    have hcc : c2 = c := by rw [h1] at h2; exact (Option.some.inj h2).symm
    subst hcc
    simp only [List.flatten_cons, List.flatten_nil, List.append_nil, List.map_cons, List.map_nil] at he
    show (encrypt c2 b).1 = _
    rw [he]
  have hD : ∀ b : List Byte, b.length = 16 → D b = AesS.decrypt key b := by
    intro b hb
    have he := (hd [b] (by simpa using hb) [] (by simp)).1
    simp only [List.flatten_cons, List.flatten_nil, List.append_nil, List.map_cons, List.map_nil] at he
    show (decrypt c b).1 = _
    rw [he]
  have e1 : ∀ b : List Byte, b.length = 16 → (E b).length = 16 := fun b hb => by
    rw [hE b hb]; exact (fips_inverse key b hb).2.2.1
  have e2 : ∀ b : List Byte, b.length = 16 → (D b).length = 16 := fun b hb => by
    rw [hD b hb]; exact (fips_inverse key b hb).2.2.2
  have e3 : ∀ b : List Byte, b.length = 16 → D (E b) = b := fun b hb => by
    rw [hD _ (e1 b hb), hE b hb]; exact (fips_inverse key b hb).1
  have e4 : ∀ b : List Byte, b.length = 16 → E (D b) = b := fun b hb => by
    rw [hE _ (e2 b hb), hD b hb]; exact (fips_inverse key b hb).2.1
  exact ⟨fun p hp => (Modes.unwrap_wrap e1 e3 p hp).2, fun x hx => Modes.unwrap_accepts_iff e1 e2 e3 e4 x hx⟩

-- RFC 3394, 4.1: 128 bits of key data under a 128-bit key
example : (keySet ((List.range 16).map (BitVec.ofNat 8))).map (fun c =>
    Modes.aesWrap (fun b => (encrypt c b).1) ((List.range 16).map fun i => BitVec.ofNat 8 (0x11 * i))) =
    some [0x1f, 0xa6, 0x8b, 0x0a, 0x81, 0x12, 0xb4, 0x47, 0xae, 0xf3, 0x4b, 0xd8, 0xfb, 0x5a, 0x7b, 0x82,
      0x9d, 0x3e, 0x86, 0x23, 0x71, 0xd2, 0xcf, 0xe5] := by decide +kernel

end Verif.Aes
