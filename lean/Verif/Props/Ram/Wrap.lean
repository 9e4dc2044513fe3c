import Verif.Lemmas.Ram.Wrap
import Verif.Props.Modes.Wrap
/-!
# C95: AES key wrap with input, output and key anywhere in memory
-/
namespace Verif.Ram
open Verif.Modes

/-- The sizes of AES keys. -/
def AesLen (n : Nat) : Prop := n = 16 ∨ n = 24 ∨ n = 32

theorem AesLen.read {n : Nat} (h : AesLen n) : keyRead n = n := by
  rcases h with rfl | rfl | rfl <;> rfl

theorem AesLen.key {n : Nat} (h : AesLen n) {l : List Byte} (hl : l.length = n) : Aes.KeySize l := by
  subst hl; exact h

/-- What the context of a key does on single blocks. -/
theorem aesKeySet_spec {R : Ram} {key n : Nat} (hk : AesLen n) (ok : R.Owned key n) :
    ∃ c, aesKeySet R key n = some c ∧
      (∀ b, b.length = 16 → Aes.encrypt c b = (AesS.encrypt (R.bytes key n) b, c)) ∧
      ∃ d, ∀ c' b, (c' = c ∨ c' = d) → b.length = 16 →
        (Aes.decrypt c' b).1 = AesS.decrypt (R.bytes key n) b ∧
          ((Aes.decrypt c' b).2 = c ∨ (Aes.decrypt c' b).2 = d) := by
  have hks : Aes.KeySize (R.bytes key n) := hk.key (by simp)
  obtain ⟨c, d, h1, hd⟩ := Aes.decrypt_fips hks
  have he : ∀ b, b.length = 16 → Aes.encrypt c b = (AesS.encrypt (R.bytes key n) b, c) := by
    intro b hb
    obtain ⟨c2, g1, g2⟩ := Aes.encrypt_fips hks [b] (by simpa using hb) [] (by simp)
    rw [h1] at g1
    obtain rfl := Option.some.inj g1
    simpa using g2
  refine ⟨c, by unfold aesKeySet; rw [hk.read, if_pos ok, h1], he, d, ?_⟩
  intro c' b hc hb
  have := hd [b] (by simpa using hb) [] (by simp)
  simp only [List.flatten_cons, List.flatten_nil, List.append_nil, List.map_cons, List.map_nil] at this
  rcases hc with rfl | rfl
  · rw [this.1]; exact ⟨rfl, Or.inr rfl⟩
  · rw [this.2]; exact ⟨rfl, Or.inr rfl⟩

theorem wrote_put1 (R : Ram) (d : Nat) (l : List Byte) : Wrote R (R.put d l) [(d, l)] [] where
  own := rfl
  tmp := rfl
  at_ := by intro w hw; rw [List.mem_singleton] at hw; subst hw; exact bytes_put_same rfl
  else_ := by intro x hx _; exact put_mem_out (hx _ (List.mem_singleton.2 rfl))

/-- What the passes compute from the memory they find. -/
theorem wrap_core {R : Ram} {out inp len key keylen : Nat} (hk : AesLen keylen) (oin : R.Owned inp len)
    (oout : R.Owned out (8 + len)) (ok : R.Owned key keylen) (h : Apart (out + 8) len inp len) :
    let R1 := R.put out (List.replicate 8 0xA6)
    let R2 := R1.put (out + 8) (R1.bytes inp len)
    aesWrapRam R out inp len key keylen =
      some (0, R2.put out (aesWrap (AesS.encrypt (R2.bytes key keylen)) (R1.bytes inp len))) ∧
    (aesWrap (AesS.encrypt (R2.bytes key keylen)) (R1.bytes inp len)).length = 8 + len := by
  intro R1 R2
  have oR2 : ∀ a n, R2.Owned a n ↔ R.Owned a n := fun _ _ => Iff.rfl
  obtain ⟨c, h1, h2, -⟩ := aesKeySet_spec (R := R2) hk ((oR2 _ _).2 ok)
  have hE : ∀ b, b.length = 16 → (AesS.encrypt (R2.bytes key keylen) b).length = 16 :=
    fun b hb => (Aes.fips_inverse _ b hb).2.2.1
  have e1 : R2.bytes out 8 = List.replicate 8 0xA6 := by
    show (R1.put _ _).bytes _ _ = _
    rw [bytes_put_apart (by rw [bytes_length]; apt), bytes_put_same (by simp)]
  have e2 : R2.bytes (out + 8) len = R1.bytes inp len := bytes_put_same (by simp)
  have hp := wrapPasses_eq h2 hE (out := out) (len / 8) len (by omega) [0, 1, 2, 3, 4, 5] R2 ((oR2 _ _).2 oout)
  rw [e1, e2] at hp
  obtain ⟨p1, p2, p3⟩ := hp
  have hb : (R1.bytes inp len).length / 8 = len / 8 := by rw [bytes_length]
  constructor
  · unfold aesWrapRam
    rw [if_pos (by ownof oout), memcpy_eq (by ownof oin) (by ownof oout) h, Option.bind_some]
    show (aesKeySet R2 key keylen).bind _ = _
    rw [h1, Option.bind_some, p1, Option.map_some]
    unfold aesWrap
    rw [hb]
  · unfold aesWrap
    rw [hb]
    dsimp only at p2 p3 ⊢
    rw [List.length_append, p2, p3]

/-- C95: when the output buffer shares no byte with the input or the key, wrapping returns 0 and writes exactly the
output, which for up to 42 whole blocks is the key wrap of RFC 3394 under AES of FIPS 197. -/
theorem wrap_ram {R : Ram} {out inp len key keylen : Nat} (hk : AesLen keylen) (oin : R.Owned inp len)
    (oout : R.Owned out (8 + len)) (ok : R.Owned key keylen) (h1 : Apart out (8 + len) inp len)
    (h2 : Apart out (8 + len) key keylen) :
    ∃ R' o, aesWrapRam R out inp len key keylen = some (0, R') ∧ o.length = 8 + len ∧ Wrote R R' [(out, o)] [] ∧
      o = aesWrap (AesS.encrypt (R.bytes key keylen)) (R.bytes inp len) ∧
      ∀ p, Blocks 8 p → p.length ≤ 42 → R.bytes inp len = p.flatten →
        o = (rfcWrap (AesS.encrypt (R.bytes key keylen)) p).flatten := by
  obtain ⟨e, el⟩ := wrap_core hk oin oout ok (by apof h1)
  have e1 : (R.put out (List.replicate 8 0xA6)).bytes inp len = R.bytes inp len :=
    bytes_put_apart (by rw [List.length_replicate]; apof h1)
  have e2 : ((R.put out (List.replicate 8 0xA6)).put (out + 8) (R.bytes inp len)).bytes key keylen = R.bytes key keylen := by
    rw [bytes_put_apart (by rw [bytes_length]; apof h2), bytes_put_apart (by rw [List.length_replicate]; apof h2)]
  rw [e1, e2] at e el
  refine ⟨_, _, e, el, ?_, rfl, ?_⟩
  · have : ((R.put out (List.replicate 8 0xA6)).put (out + 8) (R.bytes inp len)) =
        R.put out (List.replicate 8 0xA6 ++ R.bytes inp len) := by rw [put_append, List.length_replicate]
    rw [this, put_put_same (by rw [el, List.length_append, List.length_replicate, bytes_length])]
    exact wrote_put1 R out _
  · intro p hp hn hf
    rw [hf]
    exact wrap_standard (fun b hb => (Aes.fips_inverse _ b hb).2.2.1) p hp hn

/-- What unwrapping computes from the memory it finds after copying. -/
theorem unwrap_core {R : Ram} {out inp len key keylen : Nat} (hk : AesLen keylen) (oin : R.Owned inp (8 + len))
    (oout : R.Owned out len) (ok : R.Owned key keylen) (hl : 8 ≤ len) (h : Apart out len (inp + 8) len) :
    ∃ r o, o.length = len ∧ aesUnwrapRam R out inp len key keylen = some (r, R.put out o) ∧
      aesUnwrap (AesS.decrypt ((R.put out (R.bytes (inp + 8) len)).bytes key keylen)) (R.bytes inp (8 + len)) = some (r, o) := by
  let R1 := R.put out (R.bytes (inp + 8) len)
  have oR1 : ∀ a n, R1.Owned a n ↔ R.Owned a n := fun _ _ => Iff.rfl
  obtain ⟨c, h1, -, d, h2⟩ := aesKeySet_spec (R := R1) hk ((oR1 _ _).2 ok)
  have hD : ∀ b, b.length = 16 → (AesS.decrypt (R1.bytes key keylen) b).length = 16 :=
    fun b hb => (Aes.fips_inverse _ b hb).2.2.2
  obtain ⟨x, p1, p2, p3⟩ := unwrapPasses_eq (P := fun c' => c' = c ∨ c' = d) h2 hD (out := out) (len / 8) len (by omega)
    (by omega) [5, 4, 3, 2, 1, 0] R1 c (R.bytes inp 8) none (Or.inl rfl) ((oR1 _ _).2 oout) (by simp) (by simp)
  have e2 : R1.bytes out len = R.bytes (inp + 8) len := bytes_put_same (by simp)
  rw [e2] at p1 p2 p3
  have hbl : (R.bytes inp (8 + len)).length = 8 + len := by simp
  have hb1 : (R.bytes inp (8 + len)).take 8 = R.bytes inp 8 := (bytes_take rfl (by omega)).symm
  have hb2 : (R.bytes inp (8 + len)).drop 8 = R.bytes (inp + 8) len := by
    rw [bytes_add, List.drop_left' (by simp)]
  have hu : aesUnwrapRam R out inp len key keylen = if x.take 8 = List.replicate 8 0xA6 then
      some (0, R1.put out (([5, 4, 3, 2, 1, 0].foldl (fun s i => unwrapInner (AesS.decrypt (R1.bytes key keylen)) (len / 8) i (len / 8) s.1 s.2)
        (R.bytes inp 8, R.bytes (inp + 8) len)).2)) else
      some (-1, (R1.put out (([5, 4, 3, 2, 1, 0].foldl (fun s i => unwrapInner (AesS.decrypt (R1.bytes key keylen)) (len / 8) i (len / 8) s.1 s.2)
        (R.bytes inp 8, R.bytes (inp + 8) len)).2)).put out (List.replicate len 0)) := by
    unfold aesUnwrapRam
    rw [if_pos (by ownof oin), memcpy_eq (by ownof oin) (by ownof oout) h, Option.bind_some]
    show (aesKeySet R1 key keylen).bind _ = _
    rw [h1, Option.bind_some, p1, Option.bind_some, Option.bind_some]
  have hm : aesUnwrap (AesS.decrypt (R1.bytes key keylen)) (R.bytes inp (8 + len)) = if x.take 8 = List.replicate 8 0xA6 then
      some (0, ([5, 4, 3, 2, 1, 0].foldl (fun s i => unwrapInner (AesS.decrypt (R1.bytes key keylen)) (len / 8) i (len / 8) s.1 s.2)
        (R.bytes inp 8, R.bytes (inp + 8) len)).2) else some (-1, List.replicate len 0) := by
    unfold aesUnwrap
    rw [hbl, if_neg (by omega), show 8 + len - 8 = len by omega, hb1, hb2]
    dsimp only
    rw [if_neg (by omega), p2]
  show ∃ r o, _ ∧ _ ∧ aesUnwrap (AesS.decrypt (R1.bytes key keylen)) (R.bytes inp (8 + len)) = some (r, o)
  rw [hu, hm]
  generalize ([5, 4, 3, 2, 1, 0].foldl (fun s i => unwrapInner (AesS.decrypt (R1.bytes key keylen)) (len / 8) i (len / 8) s.1 s.2)
        (R.bytes inp 8, R.bytes (inp + 8) len)).2 = o at p3 ⊢
  have hR1 : ∀ l : List Byte, l.length = len → R1.put out l = R.put out l := fun l hl => put_put_same (by rw [hl, bytes_length])
  by_cases hx : x.take 8 = List.replicate 8 0xA6
  · rw [if_pos hx, if_pos hx, hR1 _ p3]
    exact ⟨0, o, p3, rfl, rfl⟩
  · rw [if_neg hx, if_neg hx, hR1 _ p3, put_put_same (by rw [p3, List.length_replicate])]
    exact ⟨-1, List.replicate len 0, by simp, rfl, rfl⟩

/-- C95: unwrapping at least one block, when the output does not overlap the input after its first 8 bytes nor the key,
either accepts, and then the input is the wrapping of the data it writes, or finds that the input is no wrapping at all,
and then writes zeros.  It writes nothing else. -/
theorem unwrap_ram {R : Ram} {out inp len key keylen : Nat} (hk : AesLen keylen) (oin : R.Owned inp (8 + len))
    (oout : R.Owned out len) (ok : R.Owned key keylen) (hl : 8 ≤ len) (h1 : Apart out len (inp + 8) len)
    (h2 : Apart out len key keylen) :
    (∃ p R', p.length = len ∧ R.bytes inp (8 + len) = aesWrap (AesS.encrypt (R.bytes key keylen)) p ∧
      aesUnwrapRam R out inp len key keylen = some (0, R') ∧ Wrote R R' [(out, p)] []) ∨
    ((∀ p, 8 ≤ p.length → R.bytes inp (8 + len) ≠ aesWrap (AesS.encrypt (R.bytes key keylen)) p) ∧
      ∃ R', aesUnwrapRam R out inp len key keylen = some (-1, R') ∧ Wrote R R' [(out, List.replicate len 0)] []) := by
  obtain ⟨r, o, g1, g2, g3⟩ := unwrap_core hk oin oout ok hl h1
  rw [bytes_put_apart (by rw [bytes_length]; exact h2)] at g3
  have hbl : (R.bytes inp (8 + len)).length = 8 + len := by simp
  rcases unwrap_accepts_iff (E := AesS.encrypt (R.bytes key keylen)) (D := AesS.decrypt (R.bytes key keylen))
    (fun b hb => (Aes.fips_inverse _ b hb).2.2.1) (fun b hb => (Aes.fips_inverse _ b hb).2.2.2)
    (fun b hb => (Aes.fips_inverse _ b hb).1) (fun b hb => (Aes.fips_inverse _ b hb).2.1)
    (R.bytes inp (8 + len)) (by rw [hbl]; omega) with ⟨p, p1, p2, p3⟩ | ⟨p1, p2⟩
  · rw [g3] at p3
    obtain ⟨rfl, rfl⟩ := Prod.mk.inj (Option.some.inj p3)
    exact Or.inl ⟨o, _, g1, p2, g2, wrote_put1 R out o⟩
  · rw [g3, hbl, show 8 + len - 8 = len by omega] at p2
    obtain ⟨rfl, rfl⟩ := Prod.mk.inj (Option.some.inj p2)
    exact Or.inr ⟨p1, _, g2, wrote_put1 R out _⟩

/-- C95: what was wrapped is unwrapped again, into any place that does not overlap the wrapped data after its first
8 bytes nor the key, for any amount of at least 8 bytes. -/
theorem wrap_unwrap_ram {R : Ram} {out inp len key keylen dst : Nat} (hk : AesLen keylen) (oin : R.Owned inp len)
    (oout : R.Owned out (8 + len)) (ok : R.Owned key keylen) (od : R.Owned dst len) (hl : 8 ≤ len)
    (h1 : Apart out (8 + len) inp len) (h2 : Apart out (8 + len) key keylen) (h3 : Apart dst len (out + 8) len)
    (h4 : Apart dst len key keylen) :
    ∃ R' R'', aesWrapRam R out inp len key keylen = some (0, R') ∧
      aesUnwrapRam R' dst out len key keylen = some (0, R'') ∧ Wrote R' R'' [(dst, R.bytes inp len)] [] := by
  obtain ⟨R', o, w1, w2, w3, w4, -⟩ := wrap_ram hk oin oout ok h1 h2
  have ow : ∀ a n, R.Owned a n → R'.Owned a n := by
    intro a n h i hi; rw [w3.own]; exact h i hi
  have ek : R'.bytes key keylen = R.bytes key keylen := by
    apply bytes_ext
    intro i hi
    refine w3.else_ _ ?_ (by simp)
    intro w hw
    rw [List.mem_singleton] at hw; subst hw
    show key + i < out ∨ out + o.length ≤ key + i
    rw [w2]; unfold Apart at h2; omega
  have eo : R'.bytes out (8 + len) = o := by
    have := w3.at_ (out, o) (by simp)
    rwa [w2] at this
  obtain ⟨r, p, g1, g2, g3⟩ := unwrap_core hk (ow _ _ oout) (ow _ _ od) (ow _ _ ok) hl h3
  rw [bytes_put_apart (by rw [bytes_length]; exact h4), ek, eo, w4,
    (unwrap_wrap (E := AesS.encrypt (R.bytes key keylen)) (D := AesS.decrypt (R.bytes key keylen))
      (fun b hb => (Aes.fips_inverse _ b hb).2.2.1) (fun b hb => (Aes.fips_inverse _ b hb).1) (R.bytes inp len)
      (by simpa using hl)).2] at g3
  obtain ⟨rfl, rfl⟩ := Prod.mk.inj (Option.some.inj g3)
  exact ⟨R', _, w1, g2, wrote_put1 R' dst _⟩

/-- C95: wrapping has defined behaviour exactly when the input is apart from the output after its first 8 bytes; so
wrapping data that already stands at its place `out + 8` is undefined. -/
theorem wrap_defined_iff {R : Ram} {out inp len key keylen : Nat} (hk : AesLen keylen) (oin : R.Owned inp len)
    (oout : R.Owned out (8 + len)) (ok : R.Owned key keylen) :
    (aesWrapRam R out inp len key keylen ≠ none) ↔ Apart (out + 8) len inp len := by
  constructor
  · intro h
    by_contra hc
    apply h
    unfold aesWrapRam
    rw [if_pos (by ownof oout), memcpy, if_neg (fun g => hc g.2.2)]
    rfl
  · intro h
    rw [(wrap_core hk oin oout ok h).1]
    simp

/-- C95: unwrapping has defined behaviour exactly for at least one block and an output apart from the input after its
first 8 bytes; so unwrapping in place (`out = in`) is defined for a single block only. -/
theorem unwrap_defined_iff {R : Ram} {out inp len key keylen : Nat} (hk : AesLen keylen) (oin : R.Owned inp (8 + len))
    (oout : R.Owned out len) (ok : R.Owned key keylen) :
    (aesUnwrapRam R out inp len key keylen ≠ none) ↔ 8 ≤ len ∧ Apart out len (inp + 8) len := by
  constructor
  · intro h
    refine ⟨?_, ?_⟩
    · by_contra hc
      apply h
      unfold aesUnwrapRam
      rw [if_pos (by ownof oin)]
      by_cases hm : Apart out len (inp + 8) len
      · rw [memcpy_eq (by ownof oin) (by ownof oout) hm, Option.bind_some]
        have ok' : (R.put out (R.bytes (inp + 8) len)).Owned key keylen := ok
        obtain ⟨c, h1, -⟩ := aesKeySet_spec hk ok'
        rw [h1, Option.bind_some, show len / 8 = 0 by omega]
        rfl
      · rw [memcpy, if_neg (fun g => hm g.2.2)]
        rfl
    · by_contra hc
      apply h
      unfold aesUnwrapRam
      rw [if_pos (by ownof oin), memcpy, if_neg (fun g => hc g.2.2)]
      rfl
  · rintro ⟨hl, h⟩
    obtain ⟨r, o, -, e, -⟩ := unwrap_core hk oin oout ok hl h
    rw [e]
    simp

theorem common {a n b k : Nat} (hn : 0 < n) (hk : 0 < k) (h : ¬ Apart a n b k) : ∃ x, a ≤ x ∧ x < a + n ∧ b ≤ x ∧ x < b + k := by
  unfold Apart at h
  exact ⟨max a b, by omega, by omega, by omega, by omega⟩

theorem put1_self_ne (R : Ram) (x : Nat) : (R.put x [R.mem x + 1]).mem x ≠ R.mem x := by
  have : (R.put x [R.mem x + 1]).mem x = R.mem x + 1 := put_mem_in (i := 0) (by simp)
  rw [this]
  have : ∀ v : Byte, v + 1 ≠ v := by decide +kernel
  exact this _

theorem bytes_ne {R R' : Ram} {a n x : Nat} (h1 : a ≤ x) (h2 : x < a + n) (h : R'.mem x ≠ R.mem x) : R'.bytes a n ≠ R.bytes a n := by
  intro e
  have := congrArg (fun l => l[x - a]?) e
  simp only [bytes_get, show x - a < n by omega, if_true, show a + (x - a) = x by omega] at this
  exact h (Option.some.inj this)

/-- A byte that will be overwritten may have any value. -/
theorem put_over {R : Ram} {a x : Nat} {v : Byte} {l : List Byte} (h1 : a ≤ x) (h2 : x < a + l.length) :
    (R.put x [v]).put a l = R.put a l := by
  refine ext rfl rfl fun y => ?_
  by_cases hy : y < a ∨ a + l.length ≤ y
  · rw [put_mem_out hy, put_mem_out hy, put_mem_out (by rw [List.length_singleton]; omega)]
  · obtain ⟨i, rfl⟩ : ∃ i, y = a + i := ⟨y - a, by omega⟩
    rw [put_mem_in (by omega), put_mem_in (by omega)]

/-- C95: an input that reaches into the first 8 bytes of the output (but not further) is lost: they are filled before it
is read, and two different inputs give the same memory in the end. -/
theorem wrap_loses_input {R : Ram} {out inp len key keylen : Nat} (hl : 0 < len) (h : ¬ Apart out 8 inp len) :
    ∃ R' : Ram, R'.own = R.own ∧ R'.bytes inp len ≠ R.bytes inp len ∧ (∀ x, Outside x inp len → R'.mem x = R.mem x) ∧
      aesWrapRam R' out inp len key keylen = aesWrapRam R out inp len key keylen := by
  obtain ⟨x, x1, x2, x3, x4⟩ := common (by omega) hl h
  refine ⟨R.put x [R.mem x + 1], rfl, bytes_ne x3 x4 (put1_self_ne R x), ?_, ?_⟩
  · intro y hy
    exact put_mem_out (by unfold Outside at hy; rw [List.length_singleton]; omega)
  · unfold aesWrapRam
    rw [put_over (l := List.replicate 8 0xA6) x1 (by rw [List.length_replicate]; omega)]
    rfl

/-- C95: a key that overlaps the output is lost: it is overwritten before it is read, and two different keys give the same
result. -/
theorem wrap_loses_key {R : Ram} {out inp len key keylen : Nat} (hk : 0 < keylen)
    (h1 : Apart out (8 + len) inp len) (h : ¬ Apart out (8 + len) key keylen) :
    ∃ R' : Ram, R'.own = R.own ∧ R'.bytes key keylen ≠ R.bytes key keylen ∧ R'.bytes inp len = R.bytes inp len ∧
      aesWrapRam R' out inp len key keylen = aesWrapRam R out inp len key keylen := by
  obtain ⟨x, x1, x2, x3, x4⟩ := common (by omega) hk h
  have hi : (R.put x [R.mem x + 1]).bytes inp len = R.bytes inp len :=
    bytes_put_apart (by rw [List.length_singleton]; unfold Apart at h1 ⊢; omega)
  refine ⟨R.put x [R.mem x + 1], rfl, bytes_ne x3 x4 (put1_self_ne R x), hi, ?_⟩
  have hi1 : ∀ R : Ram, (R.put out (List.replicate 8 0xA6)).bytes inp len = R.bytes inp len :=
    fun R => bytes_put_apart (by rw [List.length_replicate]; apof h1)
  unfold aesWrapRam memcpy
  rw [hi1, hi1, hi]
  have e : ∀ R : Ram, (R.put out (List.replicate 8 0xA6)).put (out + 8) (R.bytes inp len) =
      R.put out (List.replicate 8 0xA6 ++ R.bytes inp len) := fun R => by rw [put_append, List.length_replicate]
  have e' : ((R.put x [R.mem x + 1]).put out (List.replicate 8 0xA6)).put (out + 8) (R.bytes inp len) =
      (R.put out (List.replicate 8 0xA6)).put (out + 8) (R.bytes inp len) := by
    rw [e R, ← hi, e, put_over x1 (by rw [List.length_append, List.length_replicate, bytes_length]; omega)]
  rw [e']
  rfl

/-- C95: the same when unwrapping. -/
theorem unwrap_loses_key {R : Ram} {out inp len key keylen : Nat} (hl : 0 < len) (hk : 0 < keylen)
    (h1 : Apart out len inp (8 + len)) (h : ¬ Apart out len key keylen) :
    ∃ R' : Ram, R'.own = R.own ∧ R'.bytes key keylen ≠ R.bytes key keylen ∧ R'.bytes inp (8 + len) = R.bytes inp (8 + len) ∧
      aesUnwrapRam R' out inp len key keylen = aesUnwrapRam R out inp len key keylen := by
  obtain ⟨x, x1, x2, x3, x4⟩ := common hl hk h
  have hi : ∀ a n, inp ≤ a → a + n ≤ inp + (8 + len) → (R.put x [R.mem x + 1]).bytes a n = R.bytes a n := by
    intro a n ha hn
    exact bytes_put_apart (by rw [List.length_singleton]; unfold Apart at h1 ⊢; omega)
  refine ⟨R.put x [R.mem x + 1], rfl, bytes_ne x3 x4 (put1_self_ne R x), hi _ _ (by omega) (by omega), ?_⟩
  unfold aesUnwrapRam memcpy
  rw [hi (inp + 8) len (by omega) (by omega), hi inp 8 (by omega) (by omega),
    put_over (l := R.bytes (inp + 8) len) x1 (by rw [bytes_length]; omega)]
  rfl

-- RFC 3394, 4.1: 128 bits of key data with a key of 128 bits
example : (Aes.keySet ((List.range 16).map (BitVec.ofNat 8))).map (fun c => aesWrap (Aes.encBlock c)
    [0x00, 0x11, 0x22, 0x33, 0x44, 0x55, 0x66, 0x77, 0x88, 0x99, 0xAA, 0xBB, 0xCC, 0xDD, 0xEE, 0xFF]) =
    some [0x1F, 0xA6, 0x8B, 0x0A, 0x81, 0x12, 0xB4, 0x47, 0xAE, 0xF3, 0x4B, 0xD8, 0xFB, 0x5A, 0x7B, 0x82,
     0x9D, 0x3E, 0x86, 0x23, 0x71, 0xD2, 0xCF, 0xE5] := by decide +kernel
-- the hypotheses are met: a key of 16 bytes at 0, the data of 16 bytes at 16, the output of 24 bytes at 32, and back over the data
example : AesLen 16 ∧ Apart 32 (8 + 16) 16 16 ∧ Apart 32 (8 + 16) 0 16 ∧ Apart 16 16 (32 + 8) 16 ∧ Apart 16 16 0 16 := by
  unfold AesLen Apart; omega
-- wrapping data that stands at its place is undefined, and unwrapping 2 blocks in place too; unwrapping 1 block in place works
example : ¬ Apart (0 + 8) 16 8 16 ∧ ¬ Apart 0 16 (0 + 8) 16 ∧ Apart 0 8 (0 + 8) 8 := by unfold Apart; omega
-- data of 8 bytes at the start of the output: defined, but the data are lost
example : Apart (0 + 8) 8 0 8 ∧ ¬ Apart 0 8 0 8 := by unfold Apart; omega
example : Apart 32 (8 + 16) 0 16 ∧ ¬ Apart 32 (8 + 16) 40 16 := by unfold Apart; omega

end Verif.Ram
