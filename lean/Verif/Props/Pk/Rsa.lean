import Verif.Model.Pk.Rsa
import Verif.Spec.Pkcs
import Verif.Props.Pk.Elgamal
import Mathlib.Data.Nat.ChineseRemainder
import Mathlib.NumberTheory.LucasLehmer
import Mathlib.Tactic.NormNum.Prime
/-!
# C52, C53, C54: RSA
-/
namespace Verif.Rsa
open Verif.Mpi

/-! ## Padding -/

/-- A message that fits is put into a PKCS#1 block of the size of the modulus. -/
theorem padding_add_pkcs (dlen : Nat) (src : List Byte) (sign : Bool) (rnd : Nat → Byte) (h : src.length + 11 ≤ dlen) :
    ∃ eb, paddingAdd dlen src 1 sign rnd = .ok eb ∧ Pkcs.Block dlen sign src eb := by
  unfold paddingAdd
  rw [if_neg (by omega), if_neg (by omega)]
  cases sign with
  | true =>
    refine ⟨_, rfl, ?_, List.replicate (dlen - 3 - src.length) 0xFF#8, ⟨rfl, ?_⟩, ?_⟩
    · simp; omega
    · intro b hb; exact (List.mem_replicate.1 hb).2
    · simp; omega
  | false =>
    refine ⟨_, rfl, ?_, (List.range (dlen - 3 - src.length)).map (fun i => nozero (rnd i)), ⟨rfl, ?_⟩, ?_⟩
    · simp; omega
    · intro b hb
      obtain ⟨i, -, rfl⟩ := List.mem_map.1 hb
      simp only [Bool.false_eq_true, if_false]
      unfold nozero
      split_ifs with h0
      · decide
      · exact h0
    · simp; omega

/-- A message that does not fit is refused. -/
theorem padding_add_long (dlen : Nat) (src : List Byte) (padding : Nat) (sign : Bool) (rnd : Nat → Byte) (h11 : 11 ≤ dlen)
    (h : dlen < src.length + 11) : paddingAdd dlen src padding sign rnd = .fail := by
  unfold paddingAdd
  rw [if_pos (by omega)]

theorem delScan_form (dlen : Nat) (sign : Bool) (msg : List Byte) (hm : msg.length ≤ dlen) : ∀ ps : List Byte,
    (∀ b ∈ ps, if sign then b = 0xFF#8 else b ≠ 0#8) → delScan dlen sign (ps ++ 0#8 :: msg) = .ok msg := by
  intro ps
  induction ps with
  | nil => intro _; simp [delScan, List.take_of_length_le hm]
  | cons b ps ih =>
    intro h
    have hb := h b (by simp)
    rw [List.cons_append, delScan, if_neg, if_neg]
    · exact ih fun x hx => h x (by simp [hx])
    · cases sign with
      | true => simp only [if_true] at hb; simp [hb]
      | false => simp
    · cases sign with
      | true => simp only [if_true] at hb; rw [hb]; decide
      | false => simpa using hb

theorem delScan_ok (dlen : Nat) (sign : Bool) (msg : List Byte) : ∀ l : List Byte, l.length ≤ dlen →
    delScan dlen sign l = .ok msg →
    ∃ ps, l = ps ++ 0#8 :: msg ∧ ∀ b ∈ ps, if sign then b = 0xFF#8 else b ≠ 0#8 := by
  intro l
  induction l with
  | nil => intro _ h; simp [delScan] at h
  | cons b l ih =>
    intro hl h
    rw [delScan] at h
    simp only [List.length_cons] at hl
    split_ifs at h with h0 h1
    · rw [List.take_of_length_le (by omega)] at h
      cases h
      exact ⟨[], by simp [h0], by simp⟩
    · obtain ⟨ps, e, hp⟩ := ih (by omega) h
      refine ⟨b :: ps, by simp [e], ?_⟩
      intro x hx
      rcases List.mem_cons.1 hx with rfl | hx
      · cases sign with
        | true => simpa using h1
        | false => simpa using h0
      · exact hp x hx

theorem delScan_cases (dlen : Nat) (sign : Bool) : ∀ l : List Byte,
    delScan dlen sign l = .fail ∨ ∃ m, delScan dlen sign l = .ok m := by
  intro l
  induction l with
  | nil => left; rfl
  | cons b l ih =>
    rw [delScan]
    split_ifs
    · right; exact ⟨_, rfl⟩
    · left; rfl
    · exact ih

/-- What removing the padding accepts, exactly; `dlen` is the size of the block as in all calls. -/
theorem padding_del_iff (src : List Byte) (sign : Bool) (h2 : 2 ≤ src.length) (msg : List Byte) :
    paddingDel src.length src sign = .ok msg ↔ ∃ ps, Pkcs.Form sign ps msg src := by
  match src, h2 with
  | a :: b :: bs, _ =>
    unfold paddingDel
    dsimp only
    constructor
    · intro h
      split_ifs at h with h0
      obtain ⟨ps, e, hp⟩ := delScan_ok _ sign msg bs (by simp; omega) h
      refine ⟨ps, ?_, hp⟩
      rw [e]
      rw [not_or, not_or] at h0
      obtain ⟨ha, hb, hc⟩ := h0
      cases sign <;> simp_all
    · rintro ⟨ps, e, hp⟩
      injection e with ha e
      injection e with hb hc
      subst ha hb hc
      rw [if_neg (by cases sign <;> simp)]
      exact delScan_form _ sign msg (by simp; omega) ps hp

/-- Everything else is refused. -/
theorem padding_del_rejects (src : List Byte) (sign : Bool) (h2 : 2 ≤ src.length)
    (h : ¬ ∃ ps msg, Pkcs.Form sign ps msg src) : paddingDel src.length src sign = .fail := by
  have hno : ∀ m, paddingDel src.length src sign ≠ .ok m := fun m hm =>
    h (((padding_del_iff src sign h2 m).1 hm).imp fun ps hp => ⟨m, hp⟩)
  match src, h2 with
  | a :: b :: bs, _ =>
    unfold paddingDel at hno ⊢
    dsimp only at hno ⊢
    split_ifs with h0
    · rfl
    · rw [if_neg h0] at hno
      rcases delScan_cases (a :: b :: bs).length sign bs with h | ⟨m, h⟩
      · exact h
      · exact absurd h (hno m)

/-- Removing the padding added gives the message back, for all sizes for which padding is added at all. -/
theorem padding_roundtrip (dlen : Nat) (src eb : List Byte) (padding : Nat) (sign : Bool) (rnd : Nat → Byte)
    (h : paddingAdd dlen src padding sign rnd = .ok eb) : paddingDel dlen eb sign = .ok src := by
  unfold paddingAdd at h
  by_cases h1 : 11 ≤ dlen ∧ src.length > dlen - 11
  · rw [if_pos h1] at h; cases h
  by_cases h2 : dlen < src.length + 3
  · rw [if_neg h1, if_pos h2] at h; cases h
  rw [if_neg h1, if_neg h2] at h
  dsimp only at h
  split at h
  · cases sign with
    | true =>
      rw [if_pos rfl] at h
      have h := Res.ok.inj h
      have hl : eb.length = dlen := by rw [← h]; simp; omega
      rw [← hl]
      refine (padding_del_iff eb true (by omega) src).2 ⟨List.replicate (dlen - 3 - src.length) 0xFF#8, h.symm, ?_⟩
      exact fun b hb => (List.mem_replicate.1 hb).2
    | false =>
      rw [if_neg (by decide)] at h
      have h := Res.ok.inj h
      have hl : eb.length = dlen := by rw [← h]; simp; omega
      rw [← hl]
      refine (padding_del_iff eb false (by omega) src).2
        ⟨(List.range (dlen - 3 - src.length)).map (fun i => nozero (rnd i)), h.symm, ?_⟩
      intro b hb
      obtain ⟨i, -, rfl⟩ := List.mem_map.1 hb
      simp only [Bool.false_eq_true, if_false]
      unfold nozero
      split_ifs with h0
      · decide
      · exact h0
  · cases h
  · cases h

/-- The eight bytes of padding that the standard demands are not demanded. -/
theorem padding_short_accepted (msg : List Byte) :
    paddingDel (msg.length + 3) (0#8 :: 2#8 :: 0#8 :: msg) false = .ok msg := by
  simp [paddingDel, delScan]

example : paddingAdd 16 [7, 0, 9] 1 false (fun i => BitVec.ofNat 8 i) =
    .ok [0, 2, 1, 1, 2, 3, 4, 5, 6, 7, 8, 9, 0, 7, 0, 9] := by decide
example : paddingDel 4 [0, 1, 0xFE, 0] true = .fail := by decide
example : paddingDel 4 [0, 2, 3, 4] false = .fail := by decide

/-! ## The key -/

/-- A valid key: `n = p·q` for two primes, `e·d = 1` modulo the least common multiple of `p - 1` and `q - 1`. -/
structure Key (w : Nat) (c : Ctx) (p q e d : Nat) : Prop where
  nR : NatRep w c.n (p * q)
  eR : NatRep w c.e e
  dR : NatRep w c.d d
  pP : p.Prime
  qP : q.Prime
  ne : p ≠ q
  inv : e * d ≡ 1 [MOD Nat.lcm (p - 1) (q - 1)]

theorem pow_prime {p x m : Nat} (hp : p.Prime) (hx : x ≠ 0) (h : x ≡ 1 [MOD p - 1]) : m ^ x ≡ m [MOD p] := by
  by_cases hm : p ∣ m
  · have h1 : m ≡ 0 [MOD p] := (Nat.modEq_zero_iff_dvd).2 hm
    have h2 := h1.pow x
    rw [zero_pow hx] at h2
    exact h2.trans h1.symm
  · simpa using Dsa.pow_congr (Elgamal.pow_unit hp hm) h

theorem lcm_ne_zero_exp {p q x : Nat} (hp : p.Prime) (hq : q.Prime) (hne : p ≠ q)
    (h : x ≡ 1 [MOD Nat.lcm (p - 1) (q - 1)]) : x ≠ 0 := by
  rintro rfl
  have h1 : Nat.lcm (p - 1) (q - 1) ∣ 1 := (Nat.modEq_zero_iff_dvd).1 h.symm
  have h2 : p - 1 ∣ 1 := (Nat.dvd_lcm_left _ _).trans h1
  have h3 : q - 1 ∣ 1 := (Nat.dvd_lcm_right _ _).trans h1
  have := Nat.dvd_one.1 h2
  have := Nat.dvd_one.1 h3
  omega

/-- The two exponents undo each other modulo `n`, for all numbers. -/
theorem pow_key {p q x : Nat} (hp : p.Prime) (hq : q.Prime) (hne : p ≠ q)
    (h : x ≡ 1 [MOD Nat.lcm (p - 1) (q - 1)]) (m : Nat) : m ^ x ≡ m [MOD p * q] := by
  have hx := lcm_ne_zero_exp hp hq hne h
  exact (Nat.modEq_and_modEq_iff_modEq_mul ((Nat.coprime_primes hp hq).2 hne)).1
    ⟨pow_prime hp hx (h.of_dvd (Nat.dvd_lcm_left _ _)), pow_prime hq hx (h.of_dvd (Nat.dvd_lcm_right _ _))⟩

namespace Key
variable {w : Nat} {c : Ctx} {p q e d : Nat}

theorem one_lt (k : Key w c p q e d) : 1 < p * q := by
  have := k.pP.one_lt
  have := k.qP.one_lt
  nlinarith

/-- The exponent used by `encrypt_block`. -/
def expE (sign : Bool) (e d : Nat) : Nat := if sign then d else e
/-- The exponent used by `decrypt_block`. -/
def expD (sign : Bool) (e d : Nat) : Nat := if sign then e else d

theorem undo (k : Key w c p q e d) (sign : Bool) (m : Nat) : (m ^ expE sign e d) ^ expD sign e d ≡ m [MOD p * q] := by
  rw [← pow_mul]
  refine pow_key k.pP k.qP k.ne ?_ m
  cases sign with
  | true => show d * e ≡ _ [MOD _]; rw [mul_comm]; exact k.inv
  | false => exact k.inv

end Key

/-! ## One block -/

/-- Exponentiation of a block with a key. -/
theorem power_block {w : Nat} (hw : DigitWidth w) {nM kM : Mpi} {n k : Nat} (hn : NatRep w nM n) (h1 : 1 < n)
    (hk : NatRep w kM k) (buf : List Byte) :
    ∃ m blk, modExp w (loadBin w false buf) kM (some nM) = some m ∧ storeBin w m (countBytes w nM) true = some blk ∧
      blk.length = countBytes w nM ∧ beVal blk = beVal buf ^ k % n := by
  obtain ⟨m, e1, n1⟩ := (NatRep.loadBin hw buf).modExp hw hk hn h1
  obtain ⟨blk, e2, e3, e4⟩ := n1.storeBin hw (k := countBytes w nM)
    ((Nat.mod_lt _ (by omega)).trans (hn.lt_countBytes hw)) true
  exact ⟨m, blk, e1, e2, e4 rfl, e3⟩

/-- The number in a block that begins with a zero byte is below the modulus. -/
theorem block_lt {w : Nat} (hw : DigitWidth w) {nM : Mpi} {n : Nat} (hn : NatRep w nM n) {l : List Byte}
    (hl : (0#8 :: l).length = countBytes w nM) : beVal (0#8 :: l) < n := by
  have h1 : beVal (0#8 :: l) = beVal l := by simp [beVal]
  have h2 := beVal_lt l
  have h3 := (hn.countBytes_le hw l.length).not
  simp only [List.length_cons] at hl
  have := h3.1 (by omega)
  omega

theorem form_head {priv : Bool} {ps msg eb : List Byte} (h : Pkcs.Form priv ps msg eb) : ∃ l, eb = 0#8 :: l := ⟨_, h.1⟩

/-- Encryption of one block, PKCS#1. -/
theorem encryptBlock_spec {w : Nat} (hw : DigitWidth w) (c : Ctx) {p q e d : Nat} (k : Key w c p q e d)
    (hpad : c.padding = 1) (src : List Byte) (sign : Bool) (rnd : Nat → Byte) (h : src.length + 11 ≤ countBytes w c.n) :
    ∃ eb blk, Pkcs.Block (countBytes w c.n) sign src eb ∧ encryptBlock w c src sign rnd = .ok blk ∧
      blk.length = countBytes w c.n ∧ beVal blk = beVal eb ^ Key.expE sign e d % (p * q) := by
  obtain ⟨eb, h1, h2⟩ := padding_add_pkcs (countBytes w c.n) src sign rnd h
  have hk : NatRep w (if sign then c.d else c.e) (Key.expE sign e d) := by
    cases sign with
    | true => exact k.dR
    | false => exact k.eR
  obtain ⟨m, blk, e1, e2, e3, e4⟩ := power_block hw k.nR k.one_lt hk eb
  refine ⟨eb, blk, h2, ?_, e3, e4⟩
  unfold encryptBlock
  dsimp only
  rw [hpad, if_pos (by decide), h1]
  dsimp only [Res.bind]
  rw [e1]
  dsimp only [Res.bind, ofOption]
  rw [e2]

/-- Decryption of one block, PKCS#1: the block determines the number, the number the block. -/
theorem decryptBlock_spec {w : Nat} (hw : DigitWidth w) (c : Ctx) {p q e d : Nat} (k : Key w c p q e d)
    (hpad : c.padding = 1) (src : List Byte) (sign : Bool) (hl : src.length = countBytes w c.n) :
    ∃ buf, buf.length = countBytes w c.n ∧ beVal buf = beVal src ^ Key.expD sign e d % (p * q) ∧
      decryptBlock w c src sign = paddingDel buf.length buf sign := by
  have hk : NatRep w (if sign then c.e else c.d) (Key.expD sign e d) := by
    cases sign with
    | true => exact k.eR
    | false => exact k.dR
  obtain ⟨m, buf, e1, e2, e3, e4⟩ := power_block hw k.nR k.one_lt hk src
  refine ⟨buf, e3, e4, ?_⟩
  unfold decryptBlock
  dsimp only
  rw [if_neg (by omega), e1]
  dsimp only [Res.bind, ofOption]
  rw [e2]
  dsimp only
  rw [hpad, if_pos (by decide), e3]

/-- A block decrypts to what was encrypted. -/
theorem block_roundtrip {w : Nat} (hw : DigitWidth w) (c : Ctx) {p q e d : Nat} (k : Key w c p q e d)
    (hpad : c.padding = 1) (src : List Byte) (sign : Bool) (rnd : Nat → Byte) (h : src.length + 11 ≤ countBytes w c.n) :
    ∃ blk, encryptBlock w c src sign rnd = .ok blk ∧ blk.length = countBytes w c.n ∧
      decryptBlock w c blk sign = .ok src := by
  obtain ⟨eb, blk, ⟨b1, ps, b2, -⟩, h1, h2, h3⟩ := encryptBlock_spec hw c k hpad src sign rnd h
  refine ⟨blk, h1, h2, ?_⟩
  obtain ⟨buf, d1, d2, d3⟩ := decryptBlock_spec hw c k hpad blk sign h2
  obtain ⟨l, hl⟩ := form_head b2
  have hlt : beVal eb < p * q := by
    rw [hl] at b1 ⊢
    exact block_lt hw k.nR b1
  have hb : buf = eb := by
    apply beVal_inj (by omega)
    rw [d2, h3, ← Nat.pow_mod, k.undo sign (beVal eb), Nat.mod_eq_of_lt hlt]
  rw [d3, hb]
  exact (padding_del_iff eb sign (by omega) src).2 ⟨ps, b2⟩

/-! ## The loops -/

theorem encLoop_empty (w : Nat) (c : Ctx) (sign : Bool) (rnd : Nat → Nat → Byte) (fuel i B : Nat) :
    encLoop w c sign rnd (fuel + 1) i B [] = .ok [] := by
  rw [encLoop, if_pos rfl]

/-- What the buffer looks like while blocks are decrypted: beyond `B` nothing is ever written. -/
def Unwritten (B outlen : Nat) (mem : List (Option Byte)) : Prop :=
  outlen ≤ mem.length ∧ ∀ i, B ≤ i → i < mem.length → mem[i]? = some none

theorem unwritten_step {B outlen M : Nat} {mem : List (Option Byte)} (h : Unwritten B outlen mem) (r : List Byte)
    (hr : r.length ≤ B) (hB : B ≤ M) :
    Unwritten B (outlen + r.length)
      (r.map some ++ (mem ++ List.replicate (outlen + M - mem.length) none).drop r.length) := by
  obtain ⟨h1, h2⟩ := h
  have hlen : (r.map some ++ (mem ++ List.replicate (outlen + M - mem.length) none).drop r.length).length =
      mem.length + (outlen + M - mem.length) := by
    simp; omega
  refine ⟨by rw [hlen]; omega, ?_⟩
  intro i hi hl
  rw [hlen] at hl
  rw [List.getElem?_append_right (by simp; omega), List.getElem?_drop, List.length_map]
  rw [show r.length + (i - r.length) = i by omega]
  by_cases hm : i < mem.length
  · rw [List.getElem?_append_left hm]; exact h2 i hi hm
  · rw [List.getElem?_append_right (by omega), List.getElem?_replicate, if_pos (by omega)]

/-- Encryption of a message of any length, and what decryption then does. -/
theorem loops_spec {w : Nat} (hw : DigitWidth w) (c : Ctx) {p q e d : Nat} (k : Key w c p q e d)
    (hpad : c.padding = 1) (sign : Bool) (rnd : Nat → Nat → Byte) (B : Nat) (hB : 0 < B) (hM : B + 11 ≤ countBytes w c.n) :
    ∀ (fuel i : Nat) (inp : List Byte), inp.length < fuel →
    ∃ ct, encLoop w c sign rnd fuel i B inp = .ok ct ∧ (inp ≠ [] → ct ≠ []) ∧
      ∀ (fuelD : Nat) (mem : List (Option Byte)) (outlen : Nat), ct.length < fuelD → Unwritten B outlen mem →
        ∃ mem', decLoop w c sign fuelD mem outlen ct = .ok (mem', outlen + inp.length) ∧
          Unwritten B (outlen + inp.length) mem' := by
  intro fuel
  induction fuel with
  | zero => intro i inp h; omega
  | succ fuel ih =>
    intro i inp hf
    by_cases h0 : inp = []
    · subst h0
      refine ⟨[], encLoop_empty .., fun h => absurd rfl h, ?_⟩
      intro fuelD mem outlen hfd hu
      obtain ⟨fD, rfl⟩ : ∃ f, fuelD = f + 1 := ⟨fuelD - 1, by simp at hfd; omega⟩
      exact ⟨mem, by rw [decLoop]; simp, by simpa using hu⟩
    · have hpos : 0 < inp.length := List.length_pos_iff.2 h0
      rw [encLoop, if_neg h0]
      dsimp only
      generalize hb : (if inp.length < B then inp.length else B) = b
      have hb1 : b = min inp.length B := by
        rw [← hb]; split_ifs <;> omega
      have htl : (inp.take b).length = b := by simp; omega
      obtain ⟨blk, e1, e2, e3⟩ := block_roundtrip hw c k hpad (inp.take b) sign (rnd i) (by rw [htl]; omega)
      have hrest : ∃ ct, encLoop w c sign rnd fuel (i + 1) b (inp.drop b) = .ok ct ∧
          ∀ (fuelD : Nat) (mem : List (Option Byte)) (outlen : Nat), ct.length < fuelD → Unwritten B outlen mem →
            ∃ mem', decLoop w c sign fuelD mem outlen ct = .ok (mem', outlen + (inp.drop b).length) ∧
              Unwritten B (outlen + (inp.drop b).length) mem' := by
        by_cases hlt : inp.length < B
        · have hd : inp.drop b = [] := by
            rw [hb1, min_eq_left hlt.le]; simp
          obtain ⟨f, rfl⟩ : ∃ f, fuel = f + 1 := ⟨fuel - 1, by omega⟩
          refine ⟨[], by rw [hd]; exact encLoop_empty .., ?_⟩
          intro fuelD mem outlen hfd hu
          obtain ⟨fD, rfl⟩ : ∃ f, fuelD = f + 1 := ⟨fuelD - 1, by simp at hfd; omega⟩
          exact ⟨mem, by rw [decLoop, hd]; simp, by simpa [hd] using hu⟩
        · have hbB : b = B := by omega
          rw [hbB]
          obtain ⟨ct, c1, -, c3⟩ := ih (i + 1) (inp.drop B) (by simp; omega)
          exact ⟨ct, c1, c3⟩
      obtain ⟨ct, c1, c2⟩ := hrest
      rw [e1]
      dsimp only [Res.bind]
      rw [c1]
      dsimp only [Res.bind]
      have hblk : blk ≠ [] := by
        intro hbe; rw [hbe] at e2; simp at e2; omega
      refine ⟨blk ++ ct, rfl, fun _ => by simp [hblk], ?_⟩
      intro fuelD mem outlen hfd hu
      rw [List.length_append] at hfd
      obtain ⟨fD, rfl⟩ : ∃ f, fuelD = f + 1 := ⟨fuelD - 1, by omega⟩
      have hu' := unwritten_step hu (inp.take b) (by rw [htl]; omega) (show B ≤ countBytes w c.n by omega)
      obtain ⟨mem', m1, m2⟩ := c2 fD _ _ (by omega) hu'
      have htot : outlen + (inp.take b).length + (inp.drop b).length = outlen + inp.length := by simp; omega
      rw [htot] at m1 m2
      refine ⟨mem', ?_, m2⟩
      rw [decLoop]
      dsimp only
      rw [if_neg (by simp [hblk]), if_neg (by rw [List.length_append]; omega)]
      rw [show (blk ++ ct).take (countBytes w c.n) = blk by rw [← e2]; simp,
        show (blk ++ ct).drop (countBytes w c.n) = ct by rw [← e2]; simp, e3]
      exact m1

/-- The size of a block as computed by `encrypt`. -/
theorem blockSiz_eq {m : Nat} (h : 11 ≤ m) (h2 : m < 2 ^ 64) : (m + 2 ^ 64 - 11) % 2 ^ 64 = m - 11 := by omega

/-! ## C52 -/

/-- C52.  Full statement: decryption gives the message back for messages of any length.  Proved: for messages of one
block, `1 ≤ length ≤ size of n - 11`.  Missing, because false: longer messages (`rsa_multiblock_wrong`) and the empty
one (`rsa_empty_ub`).  The size of `n` is below 2^64, being a `size_t`. -/
theorem rsa_roundtrip_partial {w : Nat} (hw : DigitWidth w) (c : Ctx) {p q e d : Nat} (k : Key w c p q e d)
    (hpad : c.padding = 1) (h64 : countBytes w c.n < 2 ^ 64) (rnd : Nat → Nat → Byte) (sign : Bool) (msg : List Byte)
    (h0 : msg ≠ []) (h : msg.length + 11 ≤ countBytes w c.n) :
    ∃ ct, encrypt w c sign rnd msg = .ok ct ∧ ct.length = countBytes w c.n ∧
      decrypt w c sign ct = .ok (msg.map some) := by
  have hpos : 0 < msg.length := List.length_pos_iff.2 h0
  obtain ⟨blk, e1, e2, e3⟩ := block_roundtrip hw c k hpad msg sign (rnd 0) h
  have hblk : blk ≠ [] := by
    intro hbe; rw [hbe] at e2; simp at e2; omega
  refine ⟨blk, ?_, e2, ?_⟩
  · unfold encrypt
    dsimp only
    rw [if_neg h0, hpad, if_pos (by decide), blockSiz_eq (by omega) h64, encLoop, if_neg h0]
    dsimp only
    have hb : (if msg.length < countBytes w c.n - 11 then msg.length else countBytes w c.n - 11) = msg.length := by
      split_ifs <;> omega
    rw [hb, List.take_length, e1]
    dsimp only [Res.bind]
    obtain ⟨f, hf⟩ : ∃ f, msg.length = f + 1 := ⟨msg.length - 1, by omega⟩
    rw [List.drop_length, hf, encLoop_empty]
    simp
  · unfold decrypt
    rw [if_neg hblk]
    obtain ⟨f, hf⟩ : ∃ f, blk.length = f + 1 := ⟨blk.length - 1, by omega⟩
    rw [hf, decLoop]
    dsimp only
    rw [if_neg hblk, if_neg (by omega), ← e2, List.take_length, e3]
    dsimp only [Res.bind]
    rw [List.drop_length, decLoop]
    simp

/-- Without padding: a message of one block comes back followed by zeros up to the size of `n` when the number it then
stands for is below `n`, and as another string otherwise. -/
theorem rsa_nopad_partial {w : Nat} (hw : DigitWidth w) (c : Ctx) {p q e d : Nat} (k : Key w c p q e d)
    (hpad : c.padding = 0) (rnd : Nat → Nat → Byte) (sign : Bool) (msg : List Byte)
    (h0 : msg ≠ []) (h : msg.length ≤ countBytes w c.n) :
    ∃ ct out, encrypt w c sign rnd msg = .ok ct ∧ ct.length = countBytes w c.n ∧
      decrypt w c sign ct = .ok (out.map some) ∧
      (out = msg ++ List.replicate (countBytes w c.n - msg.length) 0#8 ↔
        beVal (msg ++ List.replicate (countBytes w c.n - msg.length) 0#8) < p * q) := by
  have hpos : 0 < msg.length := List.length_pos_iff.2 h0
  have hE : NatRep w (if sign then c.d else c.e) (Key.expE sign e d) := by
    cases sign with
    | true => exact k.dR
    | false => exact k.eR
  have hD : NatRep w (if sign then c.e else c.d) (Key.expD sign e d) := by
    cases sign with
    | true => exact k.eR
    | false => exact k.dR
  obtain ⟨m1, blk, a1, a2, a3, a4⟩ := power_block hw k.nR k.one_lt hE
    (msg ++ List.replicate (countBytes w c.n - msg.length) 0#8)
  obtain ⟨m2, out, b1, b2, b3, b4⟩ := power_block hw k.nR k.one_lt hD blk
  have e1 : encryptBlock w c msg sign (rnd 0) = .ok blk := by
    unfold encryptBlock
    dsimp only
    rw [hpad, if_neg (by decide), if_neg (by omega)]
    dsimp only [Res.bind]
    rw [a1]
    dsimp only [ofOption]
    rw [a2]
  have e3 : decryptBlock w c blk sign = .ok out := by
    unfold decryptBlock
    dsimp only
    rw [if_neg (by omega), b1]
    dsimp only [ofOption, Res.bind]
    rw [b2]
    dsimp only
    rw [hpad, if_neg (by decide)]
  have hblk : blk ≠ [] := by
    intro hbe; rw [hbe] at a3; simp at a3; omega
  have hval : beVal out = beVal (msg ++ List.replicate (countBytes w c.n - msg.length) 0#8) % (p * q) := by
    rw [b4, a4, ← Nat.pow_mod]
    exact k.undo sign _
  refine ⟨blk, out, ?_, a3, ?_, ?_⟩
  · unfold encrypt
    dsimp only
    rw [if_neg h0, hpad, if_neg (by decide), encLoop, if_neg h0]
    dsimp only
    have hb : (if msg.length < countBytes w c.n then msg.length else countBytes w c.n) = msg.length := by
      split_ifs <;> omega
    rw [hb, List.take_length, e1]
    dsimp only [Res.bind]
    obtain ⟨f, hf⟩ : ∃ f, msg.length = f + 1 := ⟨msg.length - 1, by omega⟩
    rw [List.drop_length, hf, encLoop_empty]
    simp
  · unfold decrypt
    rw [if_neg hblk]
    obtain ⟨f, hf⟩ : ∃ f, blk.length = f + 1 := ⟨blk.length - 1, by omega⟩
    rw [hf, decLoop]
    dsimp only
    rw [if_neg hblk, if_neg (by omega), ← a3, List.take_length, e3]
    dsimp only [Res.bind]
    rw [List.drop_length, decLoop]
    simp
  · constructor
    · intro ho
      rw [← ho, hval]
      exact Nat.mod_lt _ (by have := k.one_lt; omega)
    · intro hlt
      rw [Nat.mod_eq_of_lt hlt] at hval
      exact beVal_inj (by simp; omega) hval

/-- A message longer than one block is not decrypted: the output has the right length, but its byte number
`size of n - 11` has never been written (all blocks go to the start of the buffer). -/
theorem rsa_multiblock_wrong {w : Nat} (hw : DigitWidth w) (c : Ctx) {p q e d : Nat} (k : Key w c p q e d)
    (hpad : c.padding = 1) (h64 : countBytes w c.n < 2 ^ 64) (rnd : Nat → Nat → Byte) (sign : Bool) (msg : List Byte)
    (h12 : 12 ≤ countBytes w c.n) (h : countBytes w c.n < msg.length + 11) :
    ∃ ct out, encrypt w c sign rnd msg = .ok ct ∧ decrypt w c sign ct = .ok out ∧ out.length = msg.length ∧
      out[countBytes w c.n - 11]? = some none ∧ out ≠ msg.map some := by
  have h0 : msg ≠ [] := by rintro rfl; simp at h; omega
  obtain ⟨ct, e1, e2, e3⟩ := loops_spec hw c k hpad sign rnd (countBytes w c.n - 11) (by omega) (by omega)
    (msg.length + 1) 0 msg (by omega)
  obtain ⟨mem, m1, m2, m3⟩ := e3 (ct.length + 1) [] 0 (by omega) ⟨by simp, by simp⟩
  rw [Nat.zero_add] at m1 m2
  have hnone : (mem.take msg.length)[countBytes w c.n - 11]? = some none := by
    rw [List.getElem?_take, if_pos (by omega)]
    exact m3 _ (le_refl _) (by omega)
  refine ⟨ct, mem.take msg.length, ?_, ?_, by simp; omega, hnone, ?_⟩
  · unfold encrypt
    dsimp only
    rw [if_neg h0, hpad, if_pos (by decide), blockSiz_eq (by omega) h64]
    exact e1
  · unfold decrypt
    rw [if_neg (e2 h0), m1]
    rfl
  · intro he
    rw [he, List.getElem?_map] at hnone
    cases hx : msg[countBytes w c.n - 11]? with
    | none => rw [hx] at hnone; simp at hnone
    | some b => rw [hx] at hnone; simp at hnone

/-- For the empty message the status returned is an uninitialised variable, both ways. -/
theorem rsa_empty_ub (w : Nat) (c : Ctx) (sign : Bool) (rnd : Nat → Nat → Byte) :
    encrypt w c sign rnd [] = .ub ∧ decrypt w c sign [] = .ub := ⟨rfl, rfl⟩

/-- With a modulus of eleven bytes encryption does not end. -/
theorem rsa_eleven_hangs {w : Nat} (hw : DigitWidth w) (c : Ctx) {p q e d : Nat} (k : Key w c p q e d)
    (hpad : c.padding = 1) (rnd : Nat → Nat → Byte) (sign : Bool) (msg : List Byte) (h0 : msg ≠ [])
    (h11 : countBytes w c.n = 11) : encrypt w c sign rnd msg = .hang := by
  have key : ∀ fuel i, encLoop w c sign rnd fuel i 0 msg = .hang := by
    intro fuel
    induction fuel with
    | zero => intro i; rfl
    | succ fuel ih =>
      intro i
      obtain ⟨blk, e1, -, -⟩ := block_roundtrip hw c k hpad [] sign (rnd i) (by simp [h11])
      rw [encLoop, if_neg h0]
      dsimp only
      rw [if_neg (by omega), List.take_zero, e1]
      dsimp only [Res.bind]
      rw [List.drop_zero, ih]
  unfold encrypt
  dsimp only
  rw [if_neg h0, hpad, if_pos (by decide), h11, show (11 + 2 ^ 64 - 11) % 2 ^ 64 = 0 by decide]
  exact key _ _

/-- With a shorter modulus the check of the length never fails and the block is overrun. -/
theorem rsa_small_ub (w : Nat) (c : Ctx) (hpad : c.padding = 1) (rnd : Nat → Nat → Byte) (sign : Bool) (msg : List Byte)
    (hs : countBytes w c.n < 11) (h : countBytes w c.n < msg.length + 3) (hlen : msg.length < 2 ^ 63) (h0 : msg ≠ []) :
    encrypt w c sign rnd msg = .ub := by
  unfold encrypt
  dsimp only
  rw [if_neg h0, hpad, if_pos (by decide), encLoop, if_neg h0]
  dsimp only
  rw [if_pos (by omega), List.take_length]
  unfold encryptBlock
  dsimp only
  rw [hpad, if_pos (by decide)]
  unfold paddingAdd
  rw [if_neg (by omega), if_pos h]
  rfl

/-! ## C54 -/

theorem differ_self (l : List Byte) : differ (l.map some) l = some false := by
  induction l with
  | nil => rfl
  | cons a l ih => simpa [differ] using ih

theorem differ_false : ∀ {l : List (Option Byte)} {m : List Byte}, differ l m = some false → l.take m.length = m.map some := by
  intro l
  induction l with
  | nil => intro m h; cases m <;> simp_all [differ]
  | cons a l ih =>
    intro m h
    cases m with
    | nil => simp
    | cons b m =>
      cases a with
      | none => simp [differ] at h
      | some a =>
        rw [differ] at h
        by_cases hab : a = b
        · simp only [hab, ne_eq, not_true_eq_false, if_false] at h
          have := ih h
          simp_all
        · simp [hab] at h

/-- C54.  Full statement: verification accepts exactly what signing produced.  Proved here: it accepts it, for inputs
of one block; `rsa_verify_iff` says what else.  Missing, because false: longer inputs (`rsa_long_sign_rejected`) and
"exactly" (`rsa_second_signature`, `rsa_junk_accepted`). -/
theorem rsa_sign_verify_partial {w : Nat} (hw : DigitWidth w) (c : Ctx) {p q e d : Nat} (k : Key w c p q e d)
    (hpad : c.padding = 1) (h64 : countBytes w c.n < 2 ^ 64) (rnd : Nat → Nat → Byte) (msg : List Byte)
    (h0 : msg ≠ []) (h : msg.length + 11 ≤ countBytes w c.n) :
    ∃ sig, encrypt w c true rnd msg = .ok sig ∧ verify w c sig msg = .ok () := by
  obtain ⟨sig, e1, -, e3⟩ := rsa_roundtrip_partial hw c k hpad h64 rnd true msg h0 h
  refine ⟨sig, e1, ?_⟩
  unfold verify
  rw [e3]
  dsimp only [Res.bind]
  rw [if_neg (by rw [hpad]; simp), differ_self]

/-- Decryption of a single block. -/
theorem decrypt_one {w : Nat} (c : Ctx) (sign : Bool) (sig : List Byte) (hl : sig.length = countBytes w c.n)
    (h0 : sig ≠ []) : decrypt w c sign sig = (decryptBlock w c sig sign).bind fun r =>
      .ok ((r.map some ++ (List.replicate (countBytes w c.n) none).drop r.length).take r.length) := by
  have hpos : 0 < sig.length := List.length_pos_iff.2 h0
  unfold decrypt
  rw [if_neg h0]
  obtain ⟨f, hf⟩ : ∃ f, sig.length = f + 1 := ⟨sig.length - 1, by omega⟩
  rw [hf, decLoop]
  dsimp only
  rw [if_neg h0, if_neg (by omega), ← hl, List.take_length, List.drop_length]
  cases decryptBlock w c sig sign with
  | ok r => dsimp only [Res.bind]; rw [decLoop]; simp
  | _ => rfl

/-- What verification accepts among the byte strings of the size of the modulus: the representatives of the signature
modulo `n`. -/
theorem rsa_verify_iff {w : Nat} (hw : DigitWidth w) (c : Ctx) {p q e d : Nat} (k : Key w c p q e d)
    (hpad : c.padding = 1) (h64 : countBytes w c.n < 2 ^ 64) (rnd : Nat → Nat → Byte) (msg : List Byte)
    (h0 : msg ≠ []) (h : msg.length + 11 ≤ countBytes w c.n) (sig : List Byte) (hs : sig.length = countBytes w c.n) :
    ∃ sg, encrypt w c true rnd msg = .ok sg ∧ sg.length = countBytes w c.n ∧ beVal sg < p * q ∧
      (verify w c sig msg = .ok () ↔ beVal sig ≡ beVal sg [MOD p * q]) := by
  obtain ⟨eb, blk, ⟨b1, ps, b2, -⟩, h1, h2, h3⟩ := encryptBlock_spec hw c k hpad msg true (rnd 0) h
  obtain ⟨sg, s1, s2, -⟩ := rsa_roundtrip_partial hw c k hpad h64 rnd true msg h0 h
  have hpos : 0 < msg.length := List.length_pos_iff.2 h0
  have hsg : sg = blk := by
    unfold encrypt at s1
    dsimp only at s1
    rw [if_neg h0, hpad, if_pos (by decide), blockSiz_eq (by omega) h64, encLoop, if_neg h0] at s1
    dsimp only at s1
    have hb : (if msg.length < countBytes w c.n - 11 then msg.length else countBytes w c.n - 11) = msg.length := by
      split_ifs <;> omega
    rw [hb, List.take_length, h1] at s1
    dsimp only [Res.bind] at s1
    obtain ⟨f, hf⟩ : ∃ f, msg.length = f + 1 := ⟨msg.length - 1, by omega⟩
    rw [List.drop_length, hf, encLoop_empty] at s1
    simp only [List.append_nil] at s1
    exact (Res.ok.inj s1).symm
  subst hsg
  have hsig0 : sig ≠ [] := by
    intro hbe; rw [hbe] at hs; simp at hs; omega
  obtain ⟨buf, d1, d2, d3⟩ := decryptBlock_spec hw c k hpad sig true hs
  obtain ⟨l, hl⟩ := form_head b2
  have hlt : beVal eb < p * q := by
    rw [hl] at b1 ⊢
    exact block_lt hw k.nR b1
  have hn0 : 0 < p * q := by have := k.one_lt; omega
  refine ⟨sg, s1, s2, by rw [h3]; exact Nat.mod_lt _ hn0, ?_⟩
  have hbuf : buf = eb ↔ beVal sig ≡ beVal sg [MOD p * q] := by
    rw [h3]
    constructor
    · intro hb
      have e1 : beVal sig ^ e ≡ beVal eb [MOD p * q] := by
        rw [← hb, d2]; exact (Nat.mod_modEq _ _).symm
      have e2 : (beVal sig ^ e) ^ d ≡ beVal sig [MOD p * q] := k.undo false (beVal sig)
      exact e2.symm.trans ((e1.pow d).trans (Nat.mod_modEq _ _).symm)
    · intro hc
      apply beVal_inj (by omega)
      rw [d2]
      have e1 : beVal sig ^ e ≡ (beVal eb ^ d) ^ e [MOD p * q] := (hc.trans (Nat.mod_modEq _ _)).pow e
      have e2 : (beVal eb ^ d) ^ e ≡ beVal eb [MOD p * q] := k.undo true (beVal eb)
      have := e1.trans e2
      show beVal sig ^ e % (p * q) = _
      rw [this, Nat.mod_eq_of_lt hlt]
  rw [← hbuf]
  unfold verify
  rw [decrypt_one c true sig hs hsig0, d3]
  constructor
  · intro hv
    cases hd : paddingDel buf.length buf true with
    | ok r =>
      rw [hd] at hv
      dsimp only [Res.bind] at hv
      rw [List.take_append_of_le_length (by simp), List.take_of_length_le (by simp)] at hv
      split_ifs at hv with hc
      rw [hpad] at hc
      have hlen : r.length = msg.length := by simpa using hc
      split at hv
      · cases hv
      · cases hv
      · next hdiff =>
        have := differ_false hdiff
        rw [List.take_of_length_le (by simp [hlen])] at this
        have hr : r = msg := (List.map_injective_iff.2 (Option.some_injective _)) this
        subst hr
        obtain ⟨ps', f1, f2⟩ := (padding_del_iff buf true (by omega) r).1 hd
        have hps : ∀ (a : List Byte), (∀ b ∈ a, b = 0xFF#8) → a = List.replicate a.length 0xFF#8 :=
          fun a ha => List.eq_replicate_iff.2 ⟨rfl, ha⟩
        have g1 := hps ps' (by simpa using f2)
        have g2 := hps ps (by simpa using b2.2)
        have hl1 : ps'.length = ps.length := by
          have h5 := congrArg List.length f1
          have h6 := congrArg List.length b2.1
          simp at h5 h6
          omega
        rw [f1, b2.1, g1, g2, hl1]
    | ub => rw [hd] at hv; cases hv
    | hang => rw [hd] at hv; cases hv
    | fail => rw [hd] at hv; cases hv
  · intro hb
    rw [hb, (padding_del_iff eb true (by omega) msg).2 ⟨ps, b2⟩]
    dsimp only [Res.bind]
    rw [List.take_append_of_le_length (by simp), List.take_of_length_le (by simp), if_neg (by rw [hpad]; simp),
      differ_self]

theorem bytes_of_lt : ∀ (k n : Nat), n < 256 ^ k → ∃ l : List Byte, l.length = k ∧ beVal l = n
  | 0, n, h => ⟨[], rfl, by simp at h; simp [beVal, h]⟩
  | k + 1, n, h => by
    have h1 : n / 256 ^ k < 256 := Nat.div_lt_of_lt_mul (by rw [← pow_succ]; exact h)
    obtain ⟨l, l1, l2⟩ := bytes_of_lt k (n % 256 ^ k) (Nat.mod_lt _ (by positivity))
    refine ⟨BitVec.ofNat 8 (n / 256 ^ k) :: l, by simp [l1], ?_⟩
    rw [beVal, l1, l2, BitVec.toNat_ofNat, Nat.mod_eq_of_lt (by simpa using h1)]
    exact Nat.div_add_mod' n (256 ^ k)

/-- Hence a second signature of every input: the number plus `n`, whenever it still fits. -/
theorem rsa_second_signature {w : Nat} (hw : DigitWidth w) (c : Ctx) {p q e d : Nat} (k : Key w c p q e d)
    (hpad : c.padding = 1) (h64 : countBytes w c.n < 2 ^ 64) (rnd : Nat → Nat → Byte) (msg sg : List Byte)
    (h0 : msg ≠ []) (h : msg.length + 11 ≤ countBytes w c.n) (hs : encrypt w c true rnd msg = .ok sg)
    (hfit : beVal sg + p * q < 256 ^ countBytes w c.n) : ∃ sig, sig ≠ sg ∧ verify w c sig msg = .ok () := by
  obtain ⟨sig, s1, s2⟩ := bytes_of_lt _ _ hfit
  obtain ⟨sg', e1, e2, e3, e4⟩ := rsa_verify_iff hw c k hpad h64 rnd msg h0 h sig s1
  rw [hs] at e1
  cases e1
  have := k.one_lt
  refine ⟨sig, fun he => ?_, e4.2 ?_⟩
  · rw [he] at s2; omega
  · rw [s2]; simp [Nat.ModEq]

/-- An input longer than one block is signed, but the signature is not accepted. -/
theorem rsa_long_sign_rejected {w : Nat} (hw : DigitWidth w) (c : Ctx) {p q e d : Nat} (k : Key w c p q e d)
    (hpad : c.padding = 1) (h64 : countBytes w c.n < 2 ^ 64) (rnd : Nat → Nat → Byte) (msg : List Byte)
    (h12 : 12 ≤ countBytes w c.n) (h : countBytes w c.n < msg.length + 11) :
    ∃ sig, encrypt w c true rnd msg = .ok sig ∧ verify w c sig msg ≠ .ok () := by
  obtain ⟨sig, out, e1, e2, e3, -, e5⟩ := rsa_multiblock_wrong hw c k hpad h64 rnd true msg h12 h
  refine ⟨sig, e1, ?_⟩
  unfold verify
  rw [e2]
  dsimp only [Res.bind]
  rw [if_neg (by rw [hpad]; simp [e3])]
  intro hv
  split at hv
  · cases hv
  · cases hv
  · next hdiff =>
    have := differ_false hdiff
    rw [List.take_of_length_le (by omega)] at this
    exact e5 this

/-- A signature with a further block in front of it, the signature of nothing, is accepted too. -/
theorem rsa_junk_accepted {w : Nat} (hw : DigitWidth w) (c : Ctx) {p q e d : Nat} (k : Key w c p q e d)
    (hpad : c.padding = 1) (h64 : countBytes w c.n < 2 ^ 64) (rnd : Nat → Nat → Byte) (msg : List Byte)
    (h0 : msg ≠ []) (h : msg.length + 11 ≤ countBytes w c.n) :
    ∃ pre sg, pre ≠ [] ∧ encrypt w c true rnd msg = .ok sg ∧ verify w c (pre ++ sg) msg = .ok () := by
  obtain ⟨pre, p1, p2, p3⟩ := block_roundtrip hw c k hpad [] true (rnd 0) (by simp; omega)
  obtain ⟨sg, s1, s2, s3⟩ := rsa_roundtrip_partial hw c k hpad h64 rnd true msg h0 h
  have hpos : 0 < msg.length := List.length_pos_iff.2 h0
  have hpre : pre ≠ [] := by
    intro hbe; rw [hbe] at p2; simp at p2; omega
  have hsg : sg ≠ [] := by
    intro hbe; rw [hbe] at s2; simp at s2; omega
  refine ⟨pre, sg, hpre, s1, ?_⟩
  have hd : decryptBlock w c sg true = .ok msg := by
    rw [decrypt_one c true sg s2 hsg] at s3
    cases hd : decryptBlock w c sg true with
    | ok r =>
      rw [hd] at s3
      dsimp only [Res.bind] at s3
      rw [List.take_append_of_le_length (by simp), List.take_of_length_le (by simp)] at s3
      rw [(List.map_injective_iff.2 (Option.some_injective _)) (Res.ok.inj s3)]
    | ub => rw [hd] at s3; cases s3
    | hang => rw [hd] at s3; cases s3
    | fail => rw [hd] at s3; cases s3
  have hdec : decrypt w c true (pre ++ sg) = .ok (msg.map some) := by
    unfold decrypt
    rw [if_neg (by simp [hpre])]
    obtain ⟨f, hf⟩ : ∃ f, (pre ++ sg).length = f + 2 := ⟨(pre ++ sg).length - 2, by rw [List.length_append]; omega⟩
    rw [hf, decLoop]
    dsimp only
    rw [if_neg (by simp [hpre]), if_neg (by rw [List.length_append]; omega)]
    rw [show (pre ++ sg).take (countBytes w c.n) = pre by rw [← p2]; simp,
      show (pre ++ sg).drop (countBytes w c.n) = sg by rw [← p2]; simp, p3]
    dsimp only [Res.bind]
    rw [decLoop]
    dsimp only
    rw [if_neg hsg, if_neg (by omega), ← s2, List.take_length, List.drop_length, hd]
    dsimp only [Res.bind]
    rw [decLoop]
    simp
  unfold verify
  rw [hdec]
  dsimp only [Res.bind]
  rw [if_neg (by rw [hpad]; simp), differ_self]

theorem differ_take : ∀ {l : List (Option Byte)} {m : List Byte} (j : Nat), differ l m = some false →
    differ l (m.take j) = some false := by
  intro l
  induction l with
  | nil => intro m j h; cases m <;> simp_all [differ]
  | cons a l ih =>
    intro m j h
    cases m with
    | nil => simpa using h
    | cons b m =>
      cases a with
      | none => simp [differ] at h
      | some a =>
        cases j with
        | zero => simp [differ]
        | succ j =>
          rw [List.take_succ_cons, differ]
          rw [differ] at h
          by_cases hab : a = b
          · simp only [hab, ne_eq, not_true_eq_false, if_false] at h ⊢
            exact ih j h
          · simp [hab] at h

/-- Without padding, what is accepted for an input is accepted for every beginning of it. -/
theorem rsa_none_prefix (w : Nat) (c : Ctx) (hpad : c.padding = 0) (sig msg : List Byte)
    (h : verify w c sig msg = .ok ()) (j : Nat) : verify w c sig (msg.take j) = .ok () := by
  unfold verify at h ⊢
  cases hd : decrypt w c true sig with
  | ok out =>
    rw [hd] at h
    dsimp only [Res.bind] at h ⊢
    split_ifs at h with hc
    rw [if_neg (by simp [hpad] at hc ⊢; omega)]
    split at h
    · cases h
    · cases h
    · next hdiff => rw [differ_take j hdiff]
  | ub => rw [hd] at h; cases h
  | hang => rw [hd] at h; cases h
  | fail => rw [hd] at h; cases h

/-! ## A key: the Mersenne primes 2^61 - 1 and 2^89 - 1, a modulus of 19 bytes -/

/-- The key. -/
def toy (padding : Nat) : Ctx :=
  ⟨⟨false, [16140901064495857665, 18446744073675997183, 4194303]⟩, ⟨false, [65537]⟩,
    ⟨false, [9184810553446957193, 17834263870093361280, 2175]⟩, padding⟩

theorem toy_key (padding : Nat) :
    Key 64 (toy padding) (2 ^ 61 - 1) (2 ^ 89 - 1) 65537 740443132154395775117746638826656402702473 where
  nR := ⟨⟨by simp [Digits, toy], by simp [TopNZ, toy]⟩, rfl, rfl⟩
  eR := ⟨⟨by simp [Digits, toy], by simp [TopNZ, toy]⟩, rfl, rfl⟩
  dR := ⟨⟨by simp [Digits, toy], by simp [TopNZ, toy]⟩, rfl, rfl⟩
  pP := lucas_lehmer_sufficiency 61 (by norm_num) (by norm_num)
  qP := lucas_lehmer_sufficiency 89 (by norm_num) (by norm_num)
  ne := by decide
  inv := by decide +kernel

example (padding : Nat) : countBytes 64 (toy padding).n = 19 := by
  show countBytes 64 (toy 0).n = 19; decide

/-- A message of eight bytes makes the round trip, one of nine does not; likewise for signatures. -/
example (rnd : Nat → Nat → Byte) : ∃ ct, encrypt 64 (toy 1) false rnd [1, 2, 3, 4, 5, 6, 7, 8] = .ok ct ∧ ct.length = 19 ∧
    decrypt 64 (toy 1) false ct = .ok ([1, 2, 3, 4, 5, 6, 7, 8].map some) :=
  rsa_roundtrip_partial (by simp [DigitWidth]) (toy 1) (toy_key 1) rfl (by decide) rnd false _ (by decide) (by decide)
example (rnd : Nat → Nat → Byte) : ∃ sig, encrypt 64 (toy 1) true rnd [1, 2, 3, 4, 5, 6, 7, 8, 9] = .ok sig ∧
    verify 64 (toy 1) sig [1, 2, 3, 4, 5, 6, 7, 8, 9] ≠ .ok () :=
  rsa_long_sign_rejected (by simp [DigitWidth]) (toy 1) (toy_key 1) rfl (by decide) rnd _ (by decide) (by decide)

/-- Without padding: any signature is one of nothing. -/
example : verify 64 (toy 0) (List.replicate 19 7) [] = .ok () := by decide +kernel

/-- A modulus of eleven bytes: (2^61 - 1)·(2^21 - 9). -/
def toy11 : Ctx :=
  ⟨⟨false, [16140901064493760521, 262142]⟩, ⟨false, [65537]⟩, ⟨false, [15526028360084200043, 7905]⟩, 1⟩

theorem toy11_key : Key 64 toy11 (2 ^ 61 - 1) (2 ^ 21 - 9) 65537 145837037931034089724523 where
  nR := ⟨⟨by simp [Digits, toy11], by simp [TopNZ, toy11]⟩, rfl, rfl⟩
  eR := ⟨⟨by simp [Digits, toy11], by simp [TopNZ, toy11]⟩, rfl, rfl⟩
  dR := ⟨⟨by simp [Digits, toy11], by simp [TopNZ, toy11]⟩, rfl, rfl⟩
  pP := lucas_lehmer_sufficiency 61 (by norm_num) (by norm_num)
  qP := by norm_num
  ne := by decide
  inv := by decide +kernel

example (rnd : Nat → Nat → Byte) : encrypt 64 toy11 false rnd [1] = .hang :=
  rsa_eleven_hangs (by simp [DigitWidth]) toy11 toy11_key rfl rnd false _ (by decide) (by decide)

end Verif.Rsa
