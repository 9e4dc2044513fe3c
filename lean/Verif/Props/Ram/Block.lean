import Verif.Lemmas.Ram.Block
import Verif.Props.Crypt.Aes
import Verif.Props.Crypt.Des
/-!
# C102: AES and DES on buffers in memory
-/
namespace Verif.Ram
open Verif.Aes (KeySize)

/-! ### AES -/

theorem aes_enc_fun {key : List Byte} (hk : KeySize key) : ∃ c, Aes.keySet key = some c ∧ c.dec = false ∧ Aes.encBlock c = AesS.encrypt key ∧
    Aes.decBlock { Aes.keyInvert c with dec := true } = AesS.decrypt key := by
  obtain ⟨c, h1, h2, h3, h4⟩ := Aes.keySet_spec hk
  have hd := Aes.keyInvert_dkey h4
  refine ⟨c, h1, h3, funext fun b => ?_, funext fun b => ?_⟩
  · rw [Aes.encBlock_spec c _ h4.nr h4.key, h2]; rfl
  · rw [Aes.decBlock_spec { Aes.keyInvert c with dec := true } (AesS.expand (key.length / 4) (AesS.colAt key)) hd.nr hd.key]
    show AesS.store (AesS.invCipher c.nr _ _) = _
    rw [h2]; rfl

/-- C102: whatever the placement of source and destination, both functions treat one block after the other, reading it completely before
writing it: the memory model of the modes (`cipher`) is what the code does. -/
theorem ram_aes_cipher (c : Aes.Ctx) (R : Ram) (d s n : Nat) :
    aesEncrypt c R d s n = (cipher (Aes.encBlock (Aes.encrypt c []).2) 16 (n / 16) R d s).map (fun R => (R, (Aes.encrypt c []).2)) ∧
    aesDecrypt c R d s n = (cipher (Aes.decBlock (Aes.decrypt c []).2) 16 (n / 16) R d s).map (fun R => (R, (Aes.decrypt c []).2)) := by
  unfold aesEncrypt aesDecrypt
  dsimp only
  exact ⟨by rw [aesLoop_eq (aesEncTurn_eq _) _ n R d s rfl]; rfl, by rw [aesLoop_eq (aesDecTurn_eq _) _ n R d s rfl]; rfl⟩

/-- C102: encryption after setting the key: every whole block of the source, enciphered as in FIPS 197, stands in the destination, nothing else
is written and nothing else is read, unless the destination starts inside the source and there is more than one block. -/
theorem ram_aes_encrypt {key : List Byte} (hk : KeySize key) : ∃ c, Aes.keySet key = some c ∧ ∀ (R : Ram) (d s n : Nat),
    R.Owned s (16 * (n / 16)) → R.Owned d (16 * (n / 16)) → (d ≤ s ∨ s + 16 * (n / 16) ≤ d ∨ n < 32) →
    ∃ R', aesEncrypt c R d s n = some (R', c) ∧ Blocks (fun b b' => b' = AesS.encrypt key b) 16 (n / 16) R R' d s := by
  obtain ⟨c, h1, h2, h3, -⟩ := aes_enc_fun hk
  refine ⟨c, h1, fun R d s n os od hp => ?_⟩
  obtain ⟨R', e, hb⟩ := cipher_blocks (F := AesS.encrypt key) (c := 16) (fun b hb => (Aes.fips_inverse key b hb).2.2.1) (n / 16) R d s os od (by omega)
  refine ⟨R', ?_, hb⟩
  have hc : (Aes.encrypt c []).2 = c := by unfold Aes.encrypt; rw [h2]; rfl
  rw [(ram_aes_cipher c R d s n).1, hc, h3, e]; rfl

/-- C102: decryption after setting the key, and every further decryption. -/
theorem ram_aes_decrypt {key : List Byte} (hk : KeySize key) : ∃ c c', Aes.keySet key = some c ∧ ∀ (R : Ram) (d s n : Nat),
    R.Owned s (16 * (n / 16)) → R.Owned d (16 * (n / 16)) → (d ≤ s ∨ s + 16 * (n / 16) ≤ d ∨ n < 32) →
    ∃ R', aesDecrypt c R d s n = some (R', c') ∧ aesDecrypt c' R d s n = some (R', c') ∧
      Blocks (fun b b' => b' = AesS.decrypt key b) 16 (n / 16) R R' d s := by
  obtain ⟨c, h1, h2, -, h3⟩ := aes_enc_fun hk
  refine ⟨c, { Aes.keyInvert c with dec := true }, h1, fun R d s n os od hp => ?_⟩
  obtain ⟨R', e, hb⟩ := cipher_blocks (F := AesS.decrypt key) (c := 16) (fun b hb => (Aes.fips_inverse key b hb).2.2.2) (n / 16) R d s os od (by omega)
  have hc : (Aes.decrypt c []).2 = { Aes.keyInvert c with dec := true } := by unfold Aes.decrypt; rw [h2]; rfl
  refine ⟨R', ?_, ?_, hb⟩
  · rw [(ram_aes_cipher c R d s n).2, hc, h3, e]; rfl
  · rw [(ram_aes_cipher _ R d s n).2]
    show (cipher (Aes.decBlock { Aes.keyInvert c with dec := true }) 16 (n / 16) R d s).map _ = _
    rw [h3, e]; rfl

/-- C102: the placements left out are wrong for every key, for encryption and decryption. -/
theorem ram_aes_overlap_wrong {key : List Byte} (hk : KeySize key) {d s n : Nat} (h1 : s < d) (h2 : d < s + 16 * (n / 16)) (h3 : 32 ≤ n) :
    ∃ c, Aes.keySet key = some c ∧
      (∃ R R', (∀ a, R.own a = true) ∧ aesEncrypt c R d s n = some (R', c) ∧ ¬ Blocks (fun b b' => b' = AesS.encrypt key b) 16 (n / 16) R R' d s) ∧
      ∃ R R' c', (∀ a, R.own a = true) ∧ aesDecrypt c R d s n = some (R', c') ∧ ¬ Blocks (fun b b' => b' = AesS.decrypt key b) 16 (n / 16) R R' d s := by
  obtain ⟨c, e1, e2, e3, e4⟩ := aes_enc_fun hk
  have hc : (Aes.encrypt c []).2 = c := by unfold Aes.encrypt; rw [e2]; rfl
  have hc' : (Aes.decrypt c []).2 = { Aes.keyInvert c with dec := true } := by unfold Aes.decrypt; rw [e2]; rfl
  have inv := Aes.fips_inverse key
  refine ⟨c, e1, ?_, ?_⟩
  · obtain ⟨R, R', ho, e, i, hi, hne⟩ := cipher_overlap (F := AesS.encrypt key) (c := 16) (by decide) (fun b hb => (inv b hb).2.2.1)
      (fun a b ha hb he => by rw [← (inv a ha).1, he, (inv b hb).1]) (k := n / 16) (by omega) h1 h2
    refine ⟨R, R', ho, by rw [(ram_aes_cipher c R d s n).1, hc, e3, e]; rfl, fun hb => hne (hb.block i hi)⟩
  · obtain ⟨R, R', ho, e, i, hi, hne⟩ := cipher_overlap (F := AesS.decrypt key) (c := 16) (by decide) (fun b hb => (inv b hb).2.2.2)
      (fun a b ha hb he => by rw [← (inv a ha).2.1, he, (inv b hb).2.1]) (k := n / 16) (by omega) h1 h2
    exact ⟨R, R', _, ho, by rw [(ram_aes_cipher c R d s n).2, hc', e4, e]; rfl, fun hb => hne (hb.block i hi)⟩

/-- Blocks that are all restored: the memory is as before. -/
theorem blocks_undo {P Q : List Byte → List Byte → Prop} {c k s : Nat} {R R1 R2 : Ram} (h1 : Blocks P c k R R1 s s) (h2 : Blocks Q c k R1 R2 s s)
    (hc : 0 < c) (hPQ : ∀ x y z, x.length = c → P x y → Q y z → z = x) : R2 = R := by
  refine ext (h2.own.trans h1.own) (h2.tmp.trans h1.tmp) fun x => ?_
  by_cases hx : Outside x s (c * k)
  · rw [h2.else_ x hx, h1.else_ x hx]
  · unfold Outside at hx
    have e := Nat.div_add_mod (x - s) c
    have l := Nat.mod_lt (x - s) hc
    have hi : (x - s) / c < k := by
      rw [Nat.div_lt_iff_lt_mul hc, Nat.mul_comm]; omega
    have := hPQ _ _ _ (by simp) (h1.block _ hi) (h2.block _ hi)
    have := congrArg (fun l => l[(x - s) % c]?) this
    simp only [bytes_get] at this
    rw [if_pos l, if_pos l, show s + c * ((x - s) / c) + (x - s) % c = x by omega] at this
    exact Option.some.inj this

/-- C102: decrypting in place what was encrypted in place with the same key restores the whole memory. -/
theorem ram_aes_roundtrip {key : List Byte} (hk : KeySize key) : ∃ c, Aes.keySet key = some c ∧ ∀ (R : Ram) (s n : Nat), R.Owned s (16 * (n / 16)) →
    ∃ R' c', aesEncrypt c R s s n = some (R', c) ∧ aesDecrypt c R' s s n = some (R, c') := by
  obtain ⟨c, h1, he⟩ := ram_aes_encrypt hk
  obtain ⟨c2, c', h2, hd⟩ := ram_aes_decrypt hk
  rw [h1] at h2; cases h2
  refine ⟨c, h1, fun R s n os => ?_⟩
  obtain ⟨R', e1, b1⟩ := he R s s n os os (by omega)
  have os' : R'.Owned s (16 * (n / 16)) := fun i hi => by rw [b1.own]; exact os i hi
  obtain ⟨R2, e2, -, b2⟩ := hd R' s s n os' os' (by omega)
  have : R2 = R := blocks_undo b1 b2 (by decide) fun x y z hx h1 h2 => by rw [h2, h1]; exact (Aes.fips_inverse key x hx).1
  subst this
  exact ⟨R', c', e1, e2⟩

/-! ### DES -/

/-- C102: DES and triple DES likewise treat one block after the other, in all placements, for sizes that are multiples of 8 (`f` is any number of turns that
is enough). -/
theorem ram_des_cipher (c : Des.Ctx) (R : Ram) (d s k f : Nat) (hf : k ≤ f) (hk : 8 * k < 2 ^ 64) :
    desEncrypt c f R d s (8 * k) = (match cipher (Des.encBlock c) 8 k R d s with | none => .ub | some R => .done R) ∧
    desDecrypt c f R d s (8 * k) = (match cipher (Des.decBlock c) 8 k R d s with | none => .ub | some R => .done R) :=
  ⟨desLoop_eq (desEncTurn_eq c) k f R d s hf hk, desLoop_eq (desDecTurn_eq c) k f R d s hf hk⟩

/-- C102: with an 8-byte key DES, with a 24-byte key triple DES of every block stands in the destination, nothing else is written, unless the
destination starts inside the source and there is more than one block. -/
theorem ram_des_blocks (k1 k2 k3 : List Byte) (h1 : k1.length = 8) (h2 : k2.length = 8) (h3 : k3.length = 8) {R : Ram} {d s k f : Nat} (hf : k ≤ f)
    (hk : 8 * k < 2 ^ 64) (os : R.Owned s (8 * k)) (od : R.Owned d (8 * k)) (hp : d ≤ s ∨ s + 8 * k ≤ d ∨ k ≤ 1) :
    (∃ R', desEncrypt (Des.keySet k1) f R d s (8 * k) = .done R' ∧
      Blocks (fun b b' => DesS.bits b' = DesS.enc (DesS.bits k1) (DesS.bits b)) 8 k R R' d s) ∧
    (∃ R', desDecrypt (Des.keySet k1) f R d s (8 * k) = .done R' ∧
      Blocks (fun b b' => DesS.bits b' = DesS.dec (DesS.bits k1) (DesS.bits b)) 8 k R R' d s) ∧
    (∃ R', desEncrypt (Des.keySet (k1 ++ k2 ++ k3)) f R d s (8 * k) = .done R' ∧
      Blocks (fun b b' => DesS.bits b' = DesS.enc (DesS.bits k3) (DesS.dec (DesS.bits k2) (DesS.enc (DesS.bits k1) (DesS.bits b)))) 8 k R R' d s) ∧
    ∃ R', desDecrypt (Des.keySet (k1 ++ k2 ++ k3)) f R d s (8 * k) = .done R' ∧
      Blocks (fun b b' => DesS.bits b' = DesS.dec (DesS.bits k1) (DesS.enc (DesS.bits k2) (DesS.dec (DesS.bits k3) (DesS.bits b)))) 8 k R R' d s := by
  have st := fun b => Des.des_standard k1 k2 k3 b h1 h2 h3
  have en := fun key => cipher_blocks (F := Des.encBlock (Des.keySet key)) (c := 8) (fun b _ => Des.encBlock_length _ b) k R d s os od hp
  have de := fun key => cipher_blocks (F := Des.decBlock (Des.keySet key)) (c := 8) (fun b _ => Des.decBlock_length _ b) k R d s os od hp
  refine ⟨?_, ?_, ?_, ?_⟩
  · obtain ⟨R', e, hb⟩ := en k1
    exact ⟨R', by rw [(ram_des_cipher _ R d s k f hf hk).1, e], hb.own, hb.tmp, fun i hi => by rw [hb.block i hi]; exact (st _).1, hb.else_⟩
  · obtain ⟨R', e, hb⟩ := de k1
    exact ⟨R', by rw [(ram_des_cipher _ R d s k f hf hk).2, e], hb.own, hb.tmp, fun i hi => by rw [hb.block i hi]; exact (st _).2.1, hb.else_⟩
  · obtain ⟨R', e, hb⟩ := en (k1 ++ k2 ++ k3)
    exact ⟨R', by rw [(ram_des_cipher _ R d s k f hf hk).1, e], hb.own, hb.tmp, fun i hi => by rw [hb.block i hi]; exact (st _).2.2.1, hb.else_⟩
  · obtain ⟨R', e, hb⟩ := de (k1 ++ k2 ++ k3)
    exact ⟨R', by rw [(ram_des_cipher _ R d s k f hf hk).2, e], hb.own, hb.tmp, fun i hi => by rw [hb.block i hi]; exact (st _).2.2.2, hb.else_⟩

/-- C102: decrypting in place what was encrypted in place restores the whole memory, for keys of every length. -/
theorem ram_des_roundtrip (key : List Byte) {R : Ram} {s k f : Nat} (hf : k ≤ f) (hk : 8 * k < 2 ^ 64) (os : R.Owned s (8 * k)) :
    ∃ R', desEncrypt (Des.keySet key) f R s s (8 * k) = .done R' ∧ desDecrypt (Des.keySet key) f R' s s (8 * k) = .done R := by
  obtain ⟨R', e1, b1⟩ := cipher_blocks (F := Des.encBlock (Des.keySet key)) (c := 8) (fun b _ => Des.encBlock_length _ b) k R s s os os (Or.inl le_rfl)
  have os' : R'.Owned s (8 * k) := fun i hi => by rw [b1.own]; exact os i hi
  obtain ⟨R2, e2, b2⟩ := cipher_blocks (F := Des.decBlock (Des.keySet key)) (c := 8) (fun b _ => Des.decBlock_length _ b) k R' s s os' os' (Or.inl le_rfl)
  have : R2 = R := blocks_undo b1 b2 (by decide) fun x y z hx h1 h2 => by rw [h2, h1]; exact Des.dec_encBlock _ x hx
  subst this
  exact ⟨R', by rw [(ram_des_cipher _ R2 s s k f hf hk).1, e1], by rw [(ram_des_cipher _ R' s s k f hf hk).2, e2]⟩

/-- C102: the placements left out are wrong for every key. -/
theorem ram_des_overlap_wrong (key : List Byte) {d s k f : Nat} (hf : k ≤ f) (hk : 8 * k < 2 ^ 64) (h1 : s < d) (h2 : d < s + 8 * k) (h3 : 2 ≤ k) :
    (∃ R R', (∀ a, R.own a = true) ∧ desEncrypt (Des.keySet key) f R d s (8 * k) = .done R' ∧
      ¬ Blocks (fun b b' => b' = Des.encBlock (Des.keySet key) b) 8 k R R' d s) ∧
    ∃ R R', (∀ a, R.own a = true) ∧ desDecrypt (Des.keySet key) f R d s (8 * k) = .done R' ∧
      ¬ Blocks (fun b b' => b' = Des.decBlock (Des.keySet key) b) 8 k R R' d s := by
  constructor
  · obtain ⟨R, R', ho, e, i, hi, hne⟩ := cipher_overlap (F := Des.encBlock (Des.keySet key)) (c := 8) (by decide) (fun b _ => Des.encBlock_length _ b)
      (fun a b ha hb he => by rw [← Des.dec_encBlock (Des.keySet key) a ha, he, Des.dec_encBlock _ b hb]) h3 h1 h2
    exact ⟨R, R', ho, by rw [(ram_des_cipher _ R d s k f hf hk).1, e], fun hb => hne (hb.block i hi)⟩
  · obtain ⟨R, R', ho, e, i, hi, hne⟩ := cipher_overlap (F := Des.decBlock (Des.keySet key)) (c := 8) (by decide) (fun b _ => Des.decBlock_length _ b)
      (fun a b ha hb he => by rw [← Des.enc_decBlock (Des.keySet key) a ha, he, Des.enc_decBlock _ b hb]) h3 h1 h2
    exact ⟨R, R', ho, by rw [(ram_des_cipher _ R d s k f hf hk).2, e], fun hb => hne (hb.block i hi)⟩

/-- C102: with a size that is not a multiple of 8 neither function ever returns; having passed the end of memory its behaviour is undefined. -/
theorem ram_des_runs_over (c : Des.Ctx) (R : Ram) (d s n : Nat) (hn : n % 8 ≠ 0) :
    (∀ f R', desEncrypt c f R d s n ≠ .done R' ∧ desDecrypt c f R d s n ≠ .done R') ∧
    ∀ top, (∀ x, top ≤ x → R.own x = false) → ∃ f, desEncrypt c f R d s n = .ub ∧ desDecrypt c f R d s n = .ub :=
  ⟨fun f R' => ⟨desLoop_odd f n R R' d s hn, desLoop_odd f n R R' d s hn⟩, fun top ho => ⟨top + 1,
    desLoop_ub (desEncTurn_eq c) top top n R d s hn ho (by omega), desLoop_ub (desDecTurn_eq c) top top n R d s hn ho (by omega)⟩⟩

/-! ### Concrete cases -/

/-- 64 bytes counting up. -/
def exBlk : Ram := ⟨fun x => decide (x < 64), fun x => BitVec.ofNat 8 x, []⟩

/-- The block of FIPS 197, appendix C.1, enciphered over its own second half: 0 1 2 … 15 is the key, 00 11 22 … the block. -/
example : ∃ c R R', Aes.keySet ((List.range 16).map (BitVec.ofNat 8)) = some c ∧ R.bytes 0 16 = (List.range 16).map (fun i => BitVec.ofNat 8 (17 * i)) ∧
    aesEncrypt c R 8 0 31 = some (R', c) ∧ R'.bytes 8 16 = [0x69, 0xc4, 0xe0, 0xd8, 0x6a, 0x7b, 0x04, 0x30, 0xd8, 0xcd, 0xb7, 0x80, 0x70, 0xb4, 0xc5, 0x5a] := by
  obtain ⟨c, hc, h⟩ := ram_aes_encrypt (key := (List.range 16).map (BitVec.ofNat 8)) (by left; rfl)
  obtain ⟨R', e, hb⟩ := h ⟨fun _ => true, fun x => BitVec.ofNat 8 (17 * x), []⟩ 8 0 31 (fun _ _ => rfl) (fun _ _ => rfl) (by omega)
  refine ⟨c, _, R', hc, by decide +kernel, e, ?_⟩
  refine (hb.block 0 (by decide)).trans ?_
  have hm : Ram.bytes ⟨fun _ => true, fun x => BitVec.ofNat 8 (17 * x), []⟩ (0 + 16 * 0) 16 = (List.range 16).map fun i => BitVec.ofNat 8 (0x11 * i) := by decide +kernel
  rw [hm]
  obtain ⟨c', hc', he⟩ := Aes.encrypt_fips (key := (List.range 16).map (BitVec.ofNat 8)) (by left; rfl) [(List.range 16).map fun i => BitVec.ofNat 8 (0x11 * i)] (by simp) [] (by decide)
  have hr : ((Aes.keySet ((List.range 16).map (BitVec.ofNat 8))).map fun c => (Aes.encrypt c ((List.range 16).map fun i => BitVec.ofNat 8 (0x11 * i))).1) =
      some [0x69, 0xc4, 0xe0, 0xd8, 0x6a, 0x7b, 0x04, 0x30, 0xd8, 0xcd, 0xb7, 0x80, 0x70, 0xb4, 0xc5, 0x5a] := by decide +kernel
  simp only [List.flatten_cons, List.flatten_nil, List.append_nil, List.map_cons, List.map_nil] at he
  rw [hc', Option.map_some, he] at hr
  exact Option.some.inj hr

/-- Two blocks moved by eight bytes: a placement that is wrong; and the same in the other direction, which is right. -/
example : (0 < 8 ∧ 8 < 0 + 16 * (32 / 16) ∧ 32 ≤ 32) ∧ exBlk.Owned 8 (16 * (32 / 16)) ∧ exBlk.Owned 0 (16 * (32 / 16)) ∧ 0 ≤ 8 := by decide

/-- Triple DES of three blocks in place, and of a size of 12 at the end of memory. -/
example : exBlk.Owned 3 (8 * 3) ∧ (3 ≤ 3 ∨ 3 + 8 * 3 ≤ 3 ∨ 3 ≤ 1) ∧ 12 % 8 ≠ 0 ∧ ∀ x, 64 ≤ x → exBlk.own x = false := by
  refine ⟨by decide, Or.inl (by decide), by decide, fun x hx => ?_⟩
  show decide (x < 64) = false
  exact decide_eq_false (by omega)

end Verif.Ram
