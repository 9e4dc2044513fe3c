import Verif.Lemmas.Crypt.Crc
/-!
# C39: table-driven CRC
-/
namespace Verif.Crc
open Polynomial Verif.CrcS

theorem ccitt_tab : TabOk ccittTab 0x8408#16 := ⟨by decide +kernel, by decide +kernel⟩
theorem ibm_tab : TabOk ibmTab 0xA001#16 := ⟨by decide +kernel, by decide +kernel⟩
theorem dnp_tab : TabOk dnpTab 0xA6BC#16 := ⟨by decide +kernel, by decide +kernel⟩
theorem eth_tab : TabOk ethTab 0xEDB88320#32 := ⟨by decide +kernel, by decide +kernel⟩

theorem ccitt_gen : X ^ (15 + 1) + reg (0x8408#16 : BitVec (15 + 1)) = gCcitt := by
  simp [reg, gCcitt, Finset.sum_range_succ, bit]; ring
theorem ibm_gen : X ^ (15 + 1) + reg (0xA001#16 : BitVec (15 + 1)) = gIbm := by
  simp [reg, gIbm, Finset.sum_range_succ, bit]; ring
theorem dnp_gen : X ^ (15 + 1) + reg (0xA6BC#16 : BitVec (15 + 1)) = gDnp := by
  simp [reg, gDnp, Finset.sum_range_succ, bit]; ring
theorem eth_gen : X ^ (31 + 1) + reg (0xEDB88320#32 : BitVec (31 + 1)) = gEth := by
  simp [reg, gEth, Finset.sum_range_succ, bit]; ring

theorem ccitt_coprime : IsCoprime gCcitt X := ⟨1, -(X ^ 15 + X ^ 11 + X ^ 4), by rw [gCcitt]; ring⟩
theorem ibm_coprime : IsCoprime gIbm X := ⟨1, -(X ^ 15 + X ^ 14 + X), by rw [gIbm]; ring⟩
theorem dnp_coprime : IsCoprime gDnp X :=
  ⟨1, -(X ^ 15 + X ^ 12 + X ^ 11 + X ^ 10 + X ^ 9 + X ^ 7 + X ^ 5 + X ^ 4 + X), by rw [gDnp]; ring⟩
theorem eth_coprime : IsCoprime gEth X :=
  ⟨1, -(X ^ 31 + X ^ 25 + X ^ 22 + X ^ 21 + X ^ 15 + X ^ 11 + X ^ 10 + X ^ 9 + X ^ 7 + X ^ 6 + X ^ 4 + X ^ 3 + X + 1),
    by rw [gEth]; ring⟩

/-! ### The value is the remainder -/

theorem update_remainder {n} (hn : 8 ≤ n + 1) {P : BitVec (n + 1)} {g : Pol} (hg : X ^ (n + 1) + reg P = g) (c : Ctx (n + 1))
    (h : TabOk c.tab P) (msg : List Byte) : reg (update c msg).crc = remainder g c.crc msg := by
  rw [update_spec hn msg c h]
  show reg ((bits msg).foldl (feed P) c.crc) = _
  rw [reg_feeds_mod, hg, bits_length, remainder]

/-- A register polynomial determines the register, so the theorems below determine the value. -/
theorem reg_injective {n} : Function.Injective (reg : BitVec n → Pol) := fun _ _ => reg_inj

/-- The finishing touches of CCITT and DNP: complement, then exchange the two bytes. -/
theorem final16_both (t : List (BitVec 16)) (v : BitVec 16) : final16 ⟨t, v, true, true⟩ = (~~~ v).rotateLeft 8 := by
  have h : v ^^^ 0xFFFF#16 = ~~~ v := by
    apply BitVec.eq_of_getLsbD_eq
    intro i hi
    rw [BitVec.getLsbD_xor, BitVec.getLsbD_not]
    interval_cases i <;> simp
  simp only [final16, if_true, h]
  rfl

theorem final32_compl (t : List (BitVec 32)) (v : BitVec 32) : final32 ⟨t, v, true, false⟩ = ~~~ v := by
  have h : v ^^^ 0xFFFFFFFF#32 = ~~~ v := by
    apply BitVec.eq_of_getLsbD_eq
    intro i hi
    rw [BitVec.getLsbD_xor, BitVec.getLsbD_not]
    interval_cases i <;> simp
  simp only [final32, if_true, h, Bool.false_eq_true, if_false]

theorem update_keeps {n} : ∀ (msg : List Byte) (c : Ctx n),
    (update c msg).tab = c.tab ∧ (update c msg).compl = c.compl ∧ (update c msg).swap = c.swap
  | [], _ => ⟨rfl, rfl, rfl⟩
  | b :: msg, c => update_keeps msg _

/-- C39: CRC-16-CCITT of every message: the remainder for the documented polynomial, complemented, bytes exchanged. -/
theorem ccitt_remainder (msg : List Byte) :
    ∃ r : BitVec 16, reg r = remainder gCcitt 0xFFFF#16 msg ∧ ccitt msg = (~~~ r).rotateLeft 8 := by
  refine ⟨(update ccittInit msg).crc, update_remainder (by omega) ccitt_gen ccittInit ccitt_tab msg, ?_⟩
  obtain ⟨-, h2, h3⟩ := update_keeps msg ccittInit
  rw [ccitt, ← final16_both (update ccittInit msg).tab]
  congr 1
  rcases hc : update ccittInit msg with ⟨t, v, a, b⟩
  rw [hc] at h2 h3
  subst h2; subst h3; rfl

/-- C39: the same for CRC-16-DNP. -/
theorem dnp_remainder (msg : List Byte) :
    ∃ r : BitVec 16, reg r = remainder gDnp 0#16 msg ∧ dnp msg = (~~~ r).rotateLeft 8 := by
  refine ⟨(update dnpInit msg).crc, update_remainder (by omega) dnp_gen dnpInit dnp_tab msg, ?_⟩
  obtain ⟨-, h2, h3⟩ := update_keeps msg dnpInit
  rw [dnp, ← final16_both (update dnpInit msg).tab]
  congr 1
  rcases hc : update dnpInit msg with ⟨t, v, a, b⟩
  rw [hc] at h2 h3
  subst h2; subst h3; rfl

/-- C39: the same for CRC-16-IBM, which is not changed at the end. -/
theorem ibm_remainder (msg : List Byte) : reg (ibm msg) = remainder gIbm 0xFFFF#16 msg := by
  obtain ⟨-, h2, h3⟩ := update_keeps msg ibmInit
  rw [ibm, final16, h2, h3]
  exact update_remainder (by omega) ibm_gen ibmInit ibm_tab msg

/-- C39: the same for CRC-32-ETH, complemented. -/
theorem eth_remainder (msg : List Byte) :
    ∃ r : BitVec 32, reg r = remainder gEth 0xFFFFFFFF#32 msg ∧ eth msg = ~~~ r := by
  refine ⟨(update ethInit msg).crc, update_remainder (by omega) eth_gen ethInit eth_tab msg, ?_⟩
  obtain ⟨-, h2, h3⟩ := update_keeps msg ethInit
  rw [eth, ← final32_compl (update ethInit msg).tab]
  congr 1
  rcases hc : update ethInit msg with ⟨t, v, a, b⟩
  rw [hc] at h2 h3
  subst h2; subst h3; rfl

/-! ### Splitting -/

/-- C39: updating with two parts is updating with the whole, in any context. -/
theorem update_split {n} : ∀ (a b : List Byte) (c : Ctx n), update (update c a) b = update c (a ++ b)
  | [], _, _ => rfl
  | x :: a, b, c => by
    rw [List.cons_append, update, update]
    exact update_split a b _

/-! ### The digest -/

/-- C39: `digest` writes the value, high byte first. -/
theorem digest16_value (c : Ctx 16) : ∃ a b : Byte, digest16 c = [a, b] ∧ a ++ b = final16 c := by
  refine ⟨_, _, rfl, ?_⟩
  generalize final16 c = v
  apply BitVec.eq_of_getLsbD_eq
  intro i hi
  rw [BitVec.getLsbD_append]
  interval_cases i <;> simp

theorem digest32_value (c : Ctx 32) : ∃ a b d e : Byte, digest32 c = [a, b, d, e] ∧ a ++ b ++ d ++ e = final32 c := by
  refine ⟨_, _, _, _, rfl, ?_⟩
  generalize final32 c = v
  apply BitVec.eq_of_getLsbD_eq
  intro i hi
  rw [BitVec.getLsbD_append, BitVec.getLsbD_append, BitVec.getLsbD_append]
  interval_cases i <;> simp

/-! ### Error detection -/

/-- Two messages that differ in one burst of at most `w` bits, in the order the bits are sent. -/
def Burst (w : Nat) (a b : List Byte) : Prop :=
  ∃ pre x y post, bits a = pre ++ x ++ post ∧ bits b = pre ++ y ++ post ∧ x.length = y.length ∧ x.length ≤ w ∧ x ≠ y

theorem update_burst {n} (hn : 8 ≤ n + 1) {P : BitVec (n + 1)} {g : Pol} (hg : X ^ (n + 1) + reg P = g)
    (hc : IsCoprime g X) (c : Ctx (n + 1)) (h : TabOk c.tab P) (a b : List Byte) (hb : Burst (n + 1) a b) :
    (update c a).crc ≠ (update c b).crc := by
  obtain ⟨pre, x, y, post, ha, hb, hl, hx, hne⟩ := hb
  intro he
  rw [update_spec hn a c h, update_spec hn b c h] at he
  rw [ha, hb] at he
  exact hne (feeds_burst P (by rw [hg]; exact hc) pre x y post hl hx c.crc he)

theorem rot8_inj {a b : BitVec 16} (h : a.rotateLeft 8 = b.rotateLeft 8) : a = b := by
  apply BitVec.eq_of_getLsbD_eq
  intro i hi
  have h' := congrArg (fun v => v.getLsbD ((i + 8) % 16)) h
  simp only [BitVec.getLsbD_rotateLeft] at h'
  interval_cases i <;> simpa using h'

theorem not_inj' {n} {a b : BitVec n} (h : ~~~ a = ~~~ b) : a = b := by
  rw [← BitVec.not_not (b := a), h, BitVec.not_not]

/-- C39: every burst error of at most 16 bits changes the CRC-16-CCITT. -/
theorem ccitt_detects (a b : List Byte) (h : Burst 16 a b) : ccitt a ≠ ccitt b := by
  intro he
  have hne := update_burst (by omega) ccitt_gen ccitt_coprime ccittInit ccitt_tab a b h
  obtain ⟨r, hr, hv⟩ := ccitt_remainder a
  obtain ⟨s, hs, hw⟩ := ccitt_remainder b
  rw [hv, hw] at he
  have h1 := update_remainder (by omega) ccitt_gen ccittInit ccitt_tab a
  have h2 := update_remainder (by omega) ccitt_gen ccittInit ccitt_tab b
  exact hne (reg_inj (by rw [h1, h2]; show remainder _ 0xFFFF#16 a = remainder _ 0xFFFF#16 b; rw [← hr, ← hs, not_inj' (rot8_inj he)]))

/-- C39: every burst error of at most 16 bits changes the CRC-16-DNP. -/
theorem dnp_detects (a b : List Byte) (h : Burst 16 a b) : dnp a ≠ dnp b := by
  intro he
  have hne := update_burst (by omega) dnp_gen dnp_coprime dnpInit dnp_tab a b h
  obtain ⟨r, hr, hv⟩ := dnp_remainder a
  obtain ⟨s, hs, hw⟩ := dnp_remainder b
  rw [hv, hw] at he
  have h1 := update_remainder (by omega) dnp_gen dnpInit dnp_tab a
  have h2 := update_remainder (by omega) dnp_gen dnpInit dnp_tab b
  exact hne (reg_inj (by rw [h1, h2]; show remainder _ 0#16 a = remainder _ 0#16 b; rw [← hr, ← hs, not_inj' (rot8_inj he)]))

/-- C39: every burst error of at most 16 bits changes the CRC-16-IBM. -/
theorem ibm_detects (a b : List Byte) (h : Burst 16 a b) : ibm a ≠ ibm b := by
  intro he
  have hne := update_burst (by omega) ibm_gen ibm_coprime ibmInit ibm_tab a b h
  have h1 := update_remainder (by omega) ibm_gen ibmInit ibm_tab a
  have h2 := update_remainder (by omega) ibm_gen ibmInit ibm_tab b
  exact hne (reg_inj (by rw [h1, h2]; exact (ibm_remainder a).symm.trans ((congrArg reg he).trans (ibm_remainder b))))

/-- C39: every burst error of at most 32 bits changes the CRC-32-ETH. -/
theorem eth_detects (a b : List Byte) (h : Burst 32 a b) : eth a ≠ eth b := by
  intro he
  have hne := update_burst (by omega) eth_gen eth_coprime ethInit eth_tab a b h
  obtain ⟨r, hr, hv⟩ := eth_remainder a
  obtain ⟨s, hs, hw⟩ := eth_remainder b
  rw [hv, hw] at he
  have h1 := update_remainder (by omega) eth_gen ethInit eth_tab a
  have h2 := update_remainder (by omega) eth_gen ethInit eth_tab b
  exact hne (reg_inj (by rw [h1, h2]; show remainder _ 0xFFFFFFFF#32 a = remainder _ 0xFFFFFFFF#32 b; rw [← hr, ← hs, not_inj' he]))

/-- C39: a change of any bits inside one byte (a single-bit error among them) is a burst. -/
theorem burst_byte {w : Nat} (hw : 8 ≤ w) (p q : List Byte) {u v : Byte} (h : u ≠ v) :
    Burst w (p ++ u :: q) (p ++ v :: q) := by
  refine ⟨bits p, byteBits u, byteBits v, bits q, ?_, ?_, ?_, ?_, ?_⟩
  · rw [bits, List.flatMap_append, List.flatMap_cons, ← List.append_assoc]; rfl
  · rw [bits, List.flatMap_append, List.flatMap_cons, ← List.append_assoc]; rfl
  · simp [byteBits]
  · simpa [byteBits] using hw
  · intro he
    apply h
    apply BitVec.eq_of_getLsbD_eq
    intro i hi
    have := congrArg (fun l => l[i]?) he
    simpa [byteBits, hi] using this

-- the check values of the four algorithms, for "123456789"
example : ccitt [0x31, 0x32, 0x33, 0x34, 0x35, 0x36, 0x37, 0x38, 0x39] = 0x6E90#16 := by decide +kernel
example : dnp [0x31, 0x32, 0x33, 0x34, 0x35, 0x36, 0x37, 0x38, 0x39] = 0x82EA#16 := by decide +kernel
example : ibm [0x31, 0x32, 0x33, 0x34, 0x35, 0x36, 0x37, 0x38, 0x39] = 0x4B37#16 := by decide +kernel
example : eth [0x31, 0x32, 0x33, 0x34, 0x35, 0x36, 0x37, 0x38, 0x39] = 0xCBF43926#32 := by decide +kernel
-- a single-bit error
example : eth ([0x31, 0x32] ++ 0x33#8 :: [0x34]) ≠ eth ([0x31, 0x32] ++ 0x37#8 :: [0x34]) :=
  eth_detects _ _ (burst_byte (by omega) _ _ (by decide))

end Verif.Crc
