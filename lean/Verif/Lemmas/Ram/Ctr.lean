import Verif.Lemmas.Ram.Cfb8
import Verif.Lemmas.Modes.Ctr
/-! CTR in memory. -/
namespace Verif.Ram
open Verif.Modes (xorB encodeBE ctrBlocks ctrStream ctrBlocks_succ ctrBlocks_flatten_length encodeBE_length xorB_length
  xorB_comm ceil_eq ctrStream_length)

variable {E : List Byte → List Byte} {c : Nat}

theorem incr_ram (hc : 2 ≤ c) {R : Ram} {ctx n : Nat} (hx : R.Owned ctx c) (e : R.bytes ctx c = encodeBE c n) :
    incr R ctx c = some (R.put ctx (encodeBE c (n + 1))) := by
  unfold incr
  rw [if_pos hx, e, Modes.incBE_spec hc]; rfl

/-- Storing the counter and advancing it. -/
theorem ctr_step {R : Ram} {p ctx n k : Nat} {rest last : List Byte} (hr : rest.length = k * c) (hl : last.length = c)
    (h : Apart ctx c p ((k + 1) * c)) :
    (((R.put p (encodeBE c n)).put ctx (encodeBE c (n + 1))).put (p + c) rest).put ctx last =
      (R.put p (encodeBE c n ++ rest)).put ctx last := by
  unfold Apart at h
  rw [Nat.succ_mul] at h
  have h1 := encodeBE_length c n
  have h2 := encodeBE_length c (n + 1)
  rw [put_comm (a := ctx) (b := p + c) (by rw [h2, hr]; apt), put_put_same (by omega), put_append, h1]

theorem ctrFillDown_ram (hc : 2 ≤ c) {ctx : Nat} : ∀ (k m n p : Nat) (R : Ram), m / c ≤ k → R.Owned ctx c → R.Owned p m →
    Apart ctx c p m → R.bytes ctx c = encodeBE c n →
    ctrFillDown c ctx k R p m =
      some ((R.put p (ctrBlocks c n (m / c)).flatten).put ctx (encodeBE c (n + m / c)), m % c) := by
  intro k
  induction k with
  | zero =>
    intro m n p R h hx hd hxd e
    have hlt : m < c := by
      by_contra h'
      have := Nat.div_pos (by omega : c ≤ m) (by omega)
      omega
    rw [ctrFillDown.eq_def]
    dsimp only
    rw [if_neg (by omega), Nat.div_eq_of_lt hlt, Nat.mod_eq_of_lt hlt]
    rw [show (ctrBlocks c n 0).flatten = [] by rfl, put_nil, Nat.add_zero, ← e, put_bytes]
  | succ k ih =>
    intro m n p R h hx hd hxd e
    unfold Apart at hxd
    rw [ctrFillDown.eq_def]
    dsimp only
    by_cases hm : c ≤ m
    · have hdv : m / c = (m - c) / c + 1 := by
        rw [← Nat.add_div_right _ (by omega), Nat.sub_add_cancel hm]
      have h1 := encodeBE_length c n
      have h2 := encodeBE_length c (n + 1)
      have h3 : (m - c) / c * c ≤ m - c := Nat.div_mul_le_self _ _
      rw [if_pos hm, memcpy_eq (by own) (by own) (by apt), Option.bind_some, e,
        incr_ram (n := n) hc (by own) (by rw [bytes_put_apart (by apt), e]), Option.bind_some,
        ih (m - c) (n + 1) (p + c) _ (by omega) (by own) (by own) (by apt) (bytes_put_same h2),
        ctr_step (k := (m - c) / c) (ctrBlocks_flatten_length _ _ _) (encodeBE_length _ _)
          (by unfold Apart; rw [Nat.succ_mul]; omega), hdv, ctrBlocks_succ, List.flatten_cons,
        show n + 1 + (m - c) / c = n + ((m - c) / c + 1) by omega, ← Nat.mod_eq_sub_mod hm]
    · have hlt : m < c := by omega
      rw [if_neg hm, Nat.div_eq_of_lt hlt, Nat.mod_eq_of_lt hlt]
      rw [show (ctrBlocks c n 0).flatten = [] by rfl, put_nil, Nat.add_zero, ← e, put_bytes]

theorem ctrFill_ram (hc : 2 ≤ c) {ctx buf : Nat} : ∀ (k n p : Nat) (R : Ram), buf ≤ p → p + k * c ≤ buf + 64 →
    R.Owned ctx c → R.Owned buf 64 → Apart ctx c buf 64 → R.bytes ctx c = encodeBE c n →
    ctrFill c ctx buf k R p =
      some ((R.put p (ctrBlocks c n k).flatten).put ctx (encodeBE c (n + k)))
  | 0, n, p, R, _, _, _, _, _, e => by
    rw [ctrFill, show (ctrBlocks c n 0).flatten = [] by rfl, put_nil, Nat.add_zero, ← e, put_bytes]
  | k + 1, n, p, R, h0, hp, hx, hbuf, hxb, e => by
    unfold Apart at hxb
    have h1 := encodeBE_length c n
    have h2 := encodeBE_length c (n + 1)
    have hk : (k + 1) * c = k * c + c := Nat.succ_mul _ _
    rw [ctrFill, if_neg (by omega), memcpy_eq (by own) (by own) (by apt), Option.bind_some, e,
      incr_ram (n := n) hc (by own) (by rw [bytes_put_apart (by apt), e]), Option.bind_some,
      ctrFill_ram hc k (n + 1) (p + c) _ (by omega) (by omega) (by own) (by own) (by apt) (bytes_put_same h2),
      ctr_step (k := k) (ctrBlocks_flatten_length _ _ _) (encodeBE_length _ _) (by apt), ctrBlocks_succ, List.flatten_cons,
      show n + 1 + k = n + (k + 1) by omega]

theorem ctrFillUp_ram (hc : 2 ≤ c) {ctx buf len : Nat} : ∀ (k j m n p : Nat) (R : Ram), len ≤ m + j * c → j ≤ k →
    (∀ i < j, m + i * c < len) → buf ≤ p → p + j * c ≤ buf + 64 →
    R.Owned ctx c → R.Owned buf 64 → Apart ctx c buf 64 → R.bytes ctx c = encodeBE c n →
    ctrFillUp c ctx buf len k R p m =
      some ((R.put p (ctrBlocks c n j).flatten).put ctx (encodeBE c (n + j)), m + j * c) := by
  intro k
  induction k with
  | zero =>
    intro j m n p R g1 g2 g3 h0 hp hx hbuf hxb e
    have : j = 0 := by omega
    subst this
    rw [ctrFillUp.eq_def]
    dsimp only
    rw [if_neg (by omega), Nat.zero_mul, show (ctrBlocks c n 0).flatten = [] by rfl, put_nil, Nat.add_zero, ← e, put_bytes,
      Nat.add_zero]
  | succ k ih =>
    intro j m n p R g1 g2 g3 h0 hp hx hbuf hxb e
    unfold Apart at hxb
    rw [ctrFillUp.eq_def]
    dsimp only
    cases j with
    | zero =>
      rw [if_neg (by omega), Nat.zero_mul, show (ctrBlocks c n 0).flatten = [] by rfl, put_nil, Nat.add_zero, ← e, put_bytes,
        Nat.add_zero]
    | succ j =>
      have h4 := g3 0 (by omega)
      have h1 := encodeBE_length c n
      have h2 := encodeBE_length c (n + 1)
      have hk : (j + 1) * c = j * c + c := Nat.succ_mul _ _
      rw [if_pos (by omega), if_neg (by omega), memcpy_eq (by own) (by own) (by apt), Option.bind_some, e,
        incr_ram (n := n) hc (by own) (by rw [bytes_put_apart (by apt), e]), Option.bind_some,
        ih j (m + c) (n + 1) (p + c) _ (by omega) (by omega) (by
          intro i hi
          have := g3 (i + 1) (by omega)
          rw [Nat.succ_mul] at this
          omega) (by omega) (by omega) (by own) (by own) (by apt) (bytes_put_same h2),
        ctr_step (k := j) (ctrBlocks_flatten_length _ _ _) (encodeBE_length _ _) (by apt), ctrBlocks_succ, List.flatten_cons,
        show n + 1 + j = n + (j + 1) by omega, hk, show m + c + j * c = m + (j * c + c) by omega]

/-- The cipher over a run of counters in place. -/
theorem cipher_ctr (hE : ∀ b, b.length = c → (E b).length = c) {R : Ram} {a n k : Nat} (hd : R.Owned a (k * c))
    (e : R.bytes a (k * c) = (ctrBlocks c n k).flatten) : cipher E c k R a a = some (R.put a (ctrStream E c n k)) := by
  have hl := Modes.ctrBlocks_length c n k
  have := cipher_eq hE (ctrBlocks c n k) R a a (Modes.ctrBlocks_blocks c n k) (by rw [hl]; exact hd) (by rw [hl]; exact hd)
    (Or.inl (Nat.le_refl a)) (by rw [hl]; exact e)
  rw [hl, ← Modes.ctrStream_eq] at this
  exact this

theorem ctrOut_ram (hE : ∀ b, b.length = c → (E b).length = c) (hc : 2 ≤ c) {ctx buf d s n : Nat} {R : Ram} {src : List Byte}
    (hx : R.Owned ctx c) (hs : R.Owned s src.length) (hd : R.Owned d src.length) (hbuf : R.Owned buf c)
    (hxs : Apart ctx c s src.length) (hxd : Apart ctx c d src.length) (hxb : Apart ctx c buf c)
    (hbs : Apart buf c s src.length) (hbd : Apart buf c d src.length) (hsd : Apart s src.length d src.length)
    (e : R.bytes ctx c = encodeBE c n) (es : R.bytes s src.length = src) :
    ∃ R', ctrOut E c ctx buf R d s src.length = some R' ∧
      Wrote R R' [(d, xorB src (ctrStream E c n ((src.length + c - 1) / c))),
        (ctx, encodeBE c (n + (src.length + c - 1) / c))] [(buf, c)] := by
  unfold Apart at hxs hxd hxb hbs hbd hsd
  unfold ctrOut
  rw [ctrFillDown_ram hc _ _ n d R (Nat.div_le_self _ _) hx hd (by apt) e, Option.bind_some]
  dsimp only
  rw [ceil_eq (by omega)]
  have hdm := Nat.div_add_mod src.length c
  have hml := Nat.mod_lt src.length (show 0 < c by omega)
  rw [Nat.mul_comm] at hdm
  have hsub : src.length - src.length % c = src.length / c * c := by omega
  rw [hsub, Nat.mul_div_cancel _ (show 0 < c by omega)]
  generalize hq : src.length / c = q at *
  generalize hr : src.length % c = r at *
  have hq1 : q * c ≤ src.length := by omega
  have hfl := ctrBlocks_flatten_length c n q
  have hel := encodeBE_length c (n + q)
  have hsl := ctrStream_length hE n q
  have hs1 : R.bytes s (q * c) = src.take (q * c) := bytes_take es hq1
  have hx1 : (xorB (ctrStream E c n q) (src.take (q * c))).length = q * c := by
    rw [xorB_length, hsl, List.length_take]; omega
  rw [cipher_ctr (n := n) hE (by own) (by rw [bytes_put_apart (by apt), bytes_put_same hfl]), Option.bind_some,
    xor1_eq (by own) (by own), Option.bind_some, bytes_put_same hsl, bytes_put_apart (by apt), bytes_put_apart (by apt),
    bytes_put_apart (by apt), hs1]
  by_cases h0 : r = 0
  · subst h0
    rw [if_neg (by simp), if_pos rfl, Nat.add_zero]
    have hqs : src.take (q * c) = src := List.take_of_length_le (by omega)
    rw [hqs, xorB_comm] at hx1 ⊢
    refine ⟨_, rfl, rfl, rfl, ?_, ?_⟩
    · mems
      refine ⟨bytes_put_same rfl, ?_⟩
      rw [bytes_put_apart (by apt), bytes_put_apart (by apt), bytes_put_same rfl]
    · intro x k1 k2
      simp only [List.mem_cons, List.not_mem_nil, or_false, forall_eq_or_imp, forall_eq, Outside] at k1 k2
      rw [put_mem_out (by omega), put_mem_out (by omega), put_mem_out (by omega), put_mem_out (by omega)]
  · rw [if_pos h0, if_neg h0]
    have hel2 := encodeBE_length c (n + q + 1)
    have hbl := hE _ hel
    have es2 : R.bytes (s + src.length - r) r = src.drop (q * c) := by
      have := bytes_drop es hq1
      rw [show src.length - q * c = r by omega] at this
      rwa [show s + src.length - r = s + q * c by omega]
    rw [cipher_one (by own) (by own), Option.bind_some, bytes_put_apart (b := ctx) (by apt),
      bytes_put_apart (b := ctx) (by apt), bytes_put_same hel,
      incr_ram (n := n + q) hc (by own) (by rw [bytes_put_apart (by apt), bytes_put_apart (by apt), bytes_put_apart (by apt),
        bytes_put_same hel]), Option.bind_some,
      xor2_eq (by own) (by own) (by own) (by apt)]
    have hlong : src.length = (src.take (q * c)).length + (src.drop (q * c)).length := by
      rw [List.length_take, List.length_drop]; omega
    have hb : (E (encodeBE c (n + q))).take r = (E (encodeBE c (n + q))).take r := rfl
    rw [bytes_put_apart (b := s + src.length - r) (by apt), bytes_put_apart (b := s + src.length - r) (by apt),
      bytes_put_apart (b := s + src.length - r) (by apt), bytes_put_apart (b := s + src.length - r) (by apt),
      bytes_put_apart (b := s + src.length - r) (by apt), bytes_put_apart (b := s + src.length - r) (by apt), es2,
      bytes_put_apart (b := buf) (by apt), bytes_take (bytes_put_same hbl) (by omega)]
    have hout : xorB src (ctrStream E c n (q + 1)) =
        xorB (ctrStream E c n q) (src.take (q * c)) ++ xorB (src.drop (q * c)) ((E (encodeBE c (n + q))).take r) := by
      rw [Modes.ctrStream_add]
      conv_lhs => rw [← List.take_append_drop (q * c) src]
      rw [Modes.xorB_append _ _ (by rw [hsl, List.length_take]; omega), xorB_comm (List.take _ _)]
      congr 1
      rw [show ctrStream E c (n + q) 1 = E (encodeBE c (n + q)) by simp [ctrStream]]
      have hdl : (src.drop (q * c)).length = r := by rw [List.length_drop]; omega
      unfold xorB
      apply List.ext_getElem?
      intro i
      rw [List.getElem?_zipWith, List.getElem?_zipWith, List.getElem?_take]
      by_cases hi : i < r
      · rw [if_pos hi]
      · rw [if_neg hi, List.getElem?_eq_none (by omega)]
    rw [hout, ← Nat.add_assoc]
    have hx2 : (xorB (src.drop (q * c)) ((E (encodeBE c (n + q))).take r)).length = r := by
      rw [xorB_length, List.length_drop, List.length_take]; omega
    refine ⟨_, rfl, rfl, rfl, ?_, ?_⟩
    · mems
      constructor
      · rw [List.length_append, hx1, hx2, bytes_add, show d + q * c = d + src.length - r by omega, bytes_put_same hx2]
        congr 1
        rw [bytes_put_apart (by apt), bytes_put_apart (by apt), bytes_put_apart (by apt), bytes_put_same hx1]
      · rw [hel2, bytes_put_apart (by apt), bytes_put_same hel2]
    · intro x k1 k2
      simp only [List.mem_cons, List.not_mem_nil, or_false, forall_eq_or_imp, forall_eq, Outside, List.length_append] at k1 k2
      rw [put_mem_out (by omega), put_mem_out (by omega), put_mem_out (by omega), put_mem_out (by omega),
        put_mem_out (by omega), put_mem_out (by omega), put_mem_out (by omega)]

theorem xorB_take_right {a b : List Byte} {k : Nat} (h : a.length ≤ k) : xorB a (b.take k) = xorB a b := by
  unfold xorB
  apply List.ext_getElem?
  intro i
  rw [List.getElem?_zipWith, List.getElem?_zipWith, List.getElem?_take]
  by_cases hi : i < k
  · rw [if_pos hi]
  · rw [if_neg hi, List.getElem?_eq_none (by omega)]

/-- The part after the chunks of 64 bytes. -/
theorem ctrIn_end (hE : ∀ b, b.length = c → (E b).length = c) (hc : 2 ≤ c) {ctx buf d n : Nat} {R : Ram} {src : List Byte}
    (k : Nat) (hlt : src.length < 64) (hfit : (src.length + c - 1) / c * c ≤ 64)
    (hx : R.Owned ctx c) (hd : R.Owned d src.length) (hbuf : R.Owned buf 64)
    (hxd : Apart ctx c d src.length) (hxb : Apart ctx c buf 64) (hbd : Apart buf 64 d src.length)
    (e : R.bytes ctx c = encodeBE c n) (es : R.bytes d src.length = src) :
    ∃ R', ctrIn E c ctx buf k R d d src.length = some R' ∧
      Wrote R R' [(d, xorB src (ctrStream E c n ((src.length + c - 1) / c))),
        (ctx, encodeBE c (n + (src.length + c - 1) / c))] [(buf, 64)] := by
  unfold Apart at hxd hxb hbd
  rw [ctrIn.eq_def]
  dsimp only
  rw [if_neg (by omega)]
  by_cases h0 : src.length = 0
  · have : src = [] := List.length_eq_zero_iff.1 h0
    subst this
    rw [if_neg (by simp), show (([] : List Byte).length + c - 1) / c = 0 from Nat.div_eq_of_lt (by simp; omega)]
    refine ⟨_, rfl, rfl, rfl, ?_, fun _ _ _ => rfl⟩
    mems
    refine ⟨rfl, ?_⟩
    rw [encodeBE_length, e, Nat.add_zero]
  · rw [if_pos h0]
    have hup := ctrFillUp_ram (c := c) (ctx := ctx) (buf := buf) (len := src.length) hc src.length
      ((src.length + c - 1) / c) 0 n buf R
      (by
        have := Nat.div_add_mod (src.length + c - 1) c
        have h2 := Nat.mod_lt (src.length + c - 1) (by omega : 0 < c)
        rw [Nat.mul_comm] at this; omega)
      (by
        apply Nat.div_le_of_le_mul
        have : 2 * src.length ≤ c * src.length := Nat.mul_le_mul_right _ hc
        have h3 : c * 1 ≤ c * src.length := Nat.mul_le_mul_left _ (by omega)
        obtain ⟨a, ha⟩ : ∃ a, src.length = a + 1 := ⟨src.length - 1, by omega⟩
        rw [ha, Nat.mul_succ]
        have : a ≤ c * a := Nat.le_mul_of_pos_left _ (by omega)
        omega)
      (by
        intro i hi
        have h3 : (i + 1) * c ≤ (src.length + c - 1) / c * c := Nat.mul_le_mul_right _ hi
        have h4 := Nat.div_mul_le_self (src.length + c - 1) c
        rw [Nat.succ_mul] at h3
        omega) (Nat.le_refl _) (by omega) hx hbuf (by apt) e
    rw [hup, Option.bind_some]
    dsimp only
    have hge : src.length ≤ (src.length + c - 1) / c * c := by
      have := Nat.div_add_mod (src.length + c - 1) c
      have h2 := Nat.mod_lt (src.length + c - 1) (by omega : 0 < c)
      rw [Nat.mul_comm] at this; omega
    generalize (src.length + c - 1) / c = q at *
    have hfl := ctrBlocks_flatten_length c n q
    have hel := encodeBE_length c (n + q)
    have hsl := ctrStream_length hE n q
    rw [Nat.zero_add, Nat.mul_div_cancel _ (show 0 < c by omega),
      cipher_ctr (n := n) hE (by own) (by rw [bytes_put_apart (by apt), bytes_put_same hfl]), Option.bind_some,
      xor2_eq (by own) (by own) (by own) (by apt), bytes_take (bytes_put_same hsl) hge, bytes_put_apart (b := d) (by apt),
      bytes_put_apart (b := d) (by apt), bytes_put_apart (b := d) (by apt), es, xorB_take_right (Nat.le_refl _)]
    have hxl : (xorB src (ctrStream E c n q)).length = src.length := by rw [xorB_length, hsl]; omega
    refine ⟨_, rfl, rfl, rfl, ?_, ?_⟩
    · mems
      refine ⟨bytes_put_same rfl, ?_⟩
      rw [bytes_put_apart (by apt), bytes_put_apart (by apt), bytes_put_same rfl]
    · intro x k1 k2
      simp only [List.mem_cons, List.not_mem_nil, or_false, forall_eq_or_imp, forall_eq, Outside] at k1 k2
      rw [put_mem_out (by omega), put_mem_out (by omega), put_mem_out (by omega), put_mem_out (by omega)]

theorem ctrIn_ram {E : List Byte → List Byte} (hE : ∀ b, b.length = 16 → (E b).length = 16) {ctx buf : Nat} :
    ∀ (k : Nat) (src : List Byte) (R : Ram) (d n : Nat), src.length / 64 ≤ k →
    R.Owned ctx 16 → R.Owned d src.length → R.Owned buf 64 →
    Apart ctx 16 d src.length → Apart ctx 16 buf 64 → Apart buf 64 d src.length →
    R.bytes ctx 16 = encodeBE 16 n → R.bytes d src.length = src →
    ∃ R', ctrIn E 16 ctx buf k R d d src.length = some R' ∧
      Wrote R R' [(d, xorB src (ctrStream E 16 n ((src.length + 15) / 16))),
        (ctx, encodeBE 16 (n + (src.length + 15) / 16))] [(buf, 64)] := by
  intro k
  induction k with
  | zero =>
    intro src R d n hk hx hd hbuf hxd hxb hbd e es
    exact ctrIn_end hE (by omega) 0 (by omega) (by omega) hx hd hbuf hxd hxb hbd e es
  | succ k ih =>
    intro src R d n hk hx hd hbuf hxd hxb hbd e es
    by_cases hlt : src.length < 64
    · exact ctrIn_end hE (by omega) (k + 1) hlt (by omega) hx hd hbuf hxd hxb hbd e es
    · unfold Apart at hxd hxb hbd
      rw [ctrIn.eq_def]
      dsimp only
      obtain ⟨a, b, rfl, hal⟩ : ∃ a b, src = a ++ b ∧ a.length = 64 :=
        ⟨src.take 64, src.drop 64, (List.take_append_drop _ _).symm, by rw [List.length_take]; omega⟩
      have hfl := ctrBlocks_flatten_length 16 n 4
      have hel := encodeBE_length 16 (n + 4)
      have hsl := ctrStream_length hE n 4
      have es' := es
      rw [List.length_append, hal, bytes_add] at es'
      obtain ⟨e1, e2⟩ := List.append_inj es' (by rw [bytes_length, hal])
      rw [List.length_append, hal] at hk hd hxd hbd hlt ⊢
      have hxl : (xorB a (ctrStream E 16 n 4)).length = 64 := by rw [xorB_length, hsl, hal]; rfl
      rw [if_pos (by omega), ctrFill_ram (c := 16) (by omega) 4 n buf R (Nat.le_refl _) (by omega) hx hbuf (by apt) e,
        Option.bind_some, if_neg (by decide), show 64 / 16 = 4 by rfl,
        cipher_ctr (n := n) hE (by own) (by rw [bytes_put_apart (by apt), bytes_put_same hfl]), Option.bind_some,
        xor2_eq (by own) (by own) (by own) (by apt), Option.bind_some, bytes_put_same hsl, bytes_put_apart (b := d) (by apt),
        bytes_put_apart (b := d) (by apt), bytes_put_apart (b := d) (by apt), e1]
      generalize hR4 : (((R.put buf (ctrBlocks 16 n 4).flatten).put ctx (encodeBE 16 (n + 4))).put buf
        (ctrStream E 16 n 4)).put d (xorB a (ctrStream E 16 n 4)) = R4
      have ho : R4.own = R.own := by rw [← hR4]; rfl
      have ht : R4.tmp = R.tmp := by rw [← hR4]; rfl
      have n1 : R4.bytes ctx 16 = encodeBE 16 (n + 4) := by
        rw [← hR4, bytes_put_apart (by apt), bytes_put_apart (by apt), bytes_put_same hel]
      have n2 : R4.bytes d 64 = xorB a (ctrStream E 16 n 4) := by rw [← hR4, bytes_put_same hxl]
      have n3 : R4.bytes (d + 64) b.length = b := by
        rw [← hR4, bytes_put_apart (by apt), bytes_put_apart (by apt), bytes_put_apart (by apt), bytes_put_apart (by apt), e2]
      have n4 : ∀ x, Outside x d 64 → Outside x ctx 16 → Outside x buf 64 → R4.mem x = R.mem x := by
        intro x y1 y2 y3
        unfold Outside at y1 y2 y3
        rw [← hR4, put_mem_out (by omega), put_mem_out (by omega), put_mem_out (by omega), put_mem_out (by omega)]
      have hO4 : ∀ a n, R.Owned a n → R4.Owned a n := fun a n h i hi => by rw [ho]; exact h i hi
      replace hx := hO4 _ _ hx
      replace hd := hO4 _ _ hd
      replace hbuf := hO4 _ _ hbuf
      rw [Nat.add_sub_cancel_left]
      obtain ⟨R', g1, g2⟩ := ih b R4 (d + 64) (n + 4) (by omega) hx (by own) hbuf (by apt) (by apt) (by apt) n1 n3
      rw [g1]
      have hq : (64 + b.length + 15) / 16 = 4 + (b.length + 15) / 16 := by omega
      rw [hq, Modes.ctrStream_add, Modes.xorB_append _ _ (by rw [hsl, hal]), ← Nat.add_assoc]
      have hl2 := ctrStream_length hE (n + 4) ((b.length + 15) / 16)
      have hxl2 : (xorB b (ctrStream E 16 (n + 4) ((b.length + 15) / 16))).length = b.length := by
        rw [xorB_length, hl2]; omega
      generalize (b.length + 15) / 16 = q at *
      have hel3 := encodeBE_length 16 (n + 4 + q)
      generalize encodeBE 16 (n + 4 + q) = last at *
      generalize xorB b (ctrStream E 16 (n + 4) q) = out2 at *
      generalize xorB a (ctrStream E 16 n 4) = out1 at *
      refine ⟨R', rfl, g2.own.trans ho, g2.tmp.trans ht, ?_, ?_⟩
      · mems
        refine ⟨?_, g2.at_ (ctx, last) (by simp)⟩
        rw [List.length_append, hxl, bytes_add]
        refine congrArg₂ (· ++ ·) ?_ ?_
        · rw [g2.bytes_else, n2]
          · mems; exact ⟨by apt, by apt⟩
          · mems; apt
        · exact g2.at_ (d + 64, out2) (by simp)
      · intro x k1 k2
        simp only [List.mem_cons, List.not_mem_nil, or_false, forall_eq_or_imp, forall_eq, Outside, List.length_append] at k1 k2
        rw [g2.else_ x, n4 x (by unfold Outside; omega) (by unfold Outside; omega) (by unfold Outside; omega)]
        · mems; omega
        · mems; omega

end Verif.Ram
