import Verif.Lemmas.Ram.Stream
/-!
# C93: stream ciphers and the classical ciphers on buffers in memory
-/
namespace Verif.Ram

theorem wrote_put (R : Ram) (d : Nat) (l : List Byte) : Wrote R (R.put d l) [(d, l)] [] where
  own := rfl
  tmp := rfl
  at_ := by
    intro w hw
    rw [List.mem_singleton.1 hw]
    exact bytes_put_same rfl
  else_ := fun x h _ => put_mem_out (h (d, l) (by simp))

/-- C93: ARC4 with a non-empty key writes the RC4 ciphertext and nothing else, in place or with the output anywhere that does
not start inside the input, and leaves the same context as for separate buffers. -/
theorem arc4_ram (key : List Byte) (hk : key ≠ []) {R : Ram} {n d s : Nat} (os : R.Owned s n) (od : R.Owned d n) (h : d ≤ s ∨ s + n ≤ d) :
    ∃ c R', Arc4.keySet key = some c ∧ arc4Crypt n R c d s = some (R', (Arc4.crypt c (R.bytes s n)).2) ∧ Wrote R R' [(d, Arc4.rc4 key (R.bytes s n))] [] := by
  obtain ⟨c, hc, he⟩ := Arc4.arc4_standard key hk (R.bytes s n)
  refine ⟨c, R.put d (Arc4.rc4 key (R.bytes s n)), hc, ?_, wrote_put _ _ _⟩
  rw [arc4_byteLoop, byteLoop_ram _ _ _ _ _ _ os od h, Option.map_some, ← he]
  have := arc4_mapFrom (R.bytes s n) c
  rw [bytes_length] at this
  rw [this]

/-- With the output starting inside the input there is, for every key, a memory on which the output is wrong. -/
theorem arc4_overlap_wrong (key : List Byte) (hk : key ≠ []) {n d s : Nat} (h1 : s < d) (h2 : d < s + n) :
    ∃ c R R' c', Arc4.keySet key = some c ∧ (∀ a, R.own a = true) ∧ arc4Crypt n R c d s = some (R', c') ∧ R'.bytes d n ≠ Arc4.rc4 key (R.bytes s n) := by
  obtain ⟨c, hc, -⟩ := Arc4.arc4_standard key hk []
  obtain ⟨R, R', ho, e, hne⟩ := byteLoop_wrong (F := fun i v => v ^^^ arc4Key c i) h1 h2 (x := arc4Key c 0) (y := 1) (by
    rw [BitVec.xor_self]
    intro hh
    have := congrArg (· ^^^ arc4Key c (d - s)) hh
    simp only [BitVec.xor_assoc, BitVec.xor_self, BitVec.xor_zero] at this
    exact absurd this (by decide))
  refine ⟨c, R, R', _, hc, ho, by rw [arc4_byteLoop, e]; rfl, ?_⟩
  obtain ⟨c', hc', he⟩ := Arc4.arc4_standard key hk (R.bytes s n)
  rw [hc, Option.some.injEq] at hc'
  rw [← he, ← hc', arc4_mapFrom]
  exact hne

/-- C93: Trivium, likewise; the key stream is that of the standard. -/
theorem trivium_ram (c : Trivium.Ctx) (key iv : List Byte) {R : Ram} {n d s : Nat} (os : R.Owned s n) (od : R.Owned d n) (h : d ≤ s ∨ s + n ≤ d) :
    ∃ R' c', triviumCrypt (Trivium.ivSet (Trivium.keySet c key) iv) R d s n = some (R', c') ∧
      c' = (Trivium.crypt (Trivium.ivSet (Trivium.keySet c key) iv) (R.bytes s n)).2 ∧
      Wrote R R' [(d, List.zipWith (· ^^^ ·) (R.bytes s n) ((List.range n).map (TriviumS.byte (TriviumS.init key iv))))] [] := by
  have e : 4 * (n / 4) + n % 4 = n := by omega
  have hr := triviumLoop_ram (n / 4) (n % 4) R (Trivium.load (Trivium.ivSet (Trivium.keySet c key) iv).s) d s (by omega) (by rw [e]; exact os) (by rw [e]; exact od)
    (by rw [e]; exact h)
  rw [e] at hr
  have h1 := (Trivium.crypt_eq (Trivium.ivSet (Trivium.keySet c key) iv) (R.bytes s n)).1
  rw [Trivium.ivSet_state, bytes_length] at h1
  rw [← h1]
  refine ⟨_, _, by rw [triviumCrypt, hr]; rfl, rfl, wrote_put _ _ _⟩

/-- Trivium reads a word before it writes one, so that one other placement works: a message of exactly four bytes moved up
by less than four.  In all others with the output starting inside the input there is, for every key and initial value, a
memory on which the output is wrong. -/
theorem trivium_overlap_iff (c : Trivium.Ctx) (key iv : List Byte) {n d s : Nat} (h1 : s < d) (h2 : d < s + n) :
    (∀ R : Ram, R.Owned s n → R.Owned d n → ∃ R' c', triviumCrypt (Trivium.ivSet (Trivium.keySet c key) iv) R d s n = some (R', c') ∧
      R'.bytes d n = List.zipWith (· ^^^ ·) (R.bytes s n) ((List.range n).map (TriviumS.byte (TriviumS.init key iv)))) ↔ n = 4 := by
  have e : 4 * (n / 4) + n % 4 = n := by omega
  generalize hw : Trivium.load (Trivium.ivSet (Trivium.keySet c key) iv).s = w
  have hst : TriviumS.init key iv = Trivium.abs w := by rw [← hw, Trivium.ivSet_state]
  have hloop : ∀ l : List Byte, (Trivium.loop w l).1 = List.zipWith (· ^^^ ·) l ((List.range l.length).map (TriviumS.byte (TriviumS.init key iv))) := fun l => by
    rw [hst]; exact (Trivium.loop_eq _ w l le_rfl).1
  have hres : ∀ (R : Ram), triviumCrypt (Trivium.ivSet (Trivium.keySet c key) iv) R d s n =
      (triviumLoop (n / 4) (n % 4) R w d s).map fun r => (r.1, { Trivium.ivSet (Trivium.keySet c key) iv with s := Trivium.store r.2 }) := by
    intro R; rw [triviumCrypt, hw]
  constructor
  · intro hall
    by_contra hn
    -- key stream byte `j`, and the byte that is wrong
    have key : ∃ (R R' : Ram) (w' : Trivium.W), (∀ a m, R.Owned a m) ∧ triviumLoop (n / 4) (n % 4) R w d s = some (R', w') ∧ R'.bytes d n ≠ (Trivium.loop w (R.bytes s n)).1 := by
      by_cases hs : n < 4
      · -- only the last bytes
        have hq : n / 4 = 0 := by omega
        have hm : n % 4 = n := by omega
        obtain ⟨R, R', ho, eb, hne⟩ := byteLoop_wrong (F := fun i v => v ^^^ ((Trivium.out w) >>> (8 * i)).setWidth 8) h1 h2
          (x := ((Trivium.out w) >>> (8 * 0)).setWidth 8) (y := 1) (by
            rw [BitVec.xor_self]
            intro hh
            have := congrArg (· ^^^ BitVec.setWidth 8 ((Trivium.out w) >>> (8 * (d - s)))) hh
            simp only [BitVec.xor_assoc, BitVec.xor_self, BitVec.xor_zero] at this
            exact absurd this (by decide))
        refine ⟨R, R', Trivium.update w, fun _ _ _ _ => ho _, ?_, ?_⟩
        · rw [hq, hm, triviumLoop, if_pos (by omega), triviumTail_byteLoop, eb]; rfl
        · rw [loop_short w R s hs (by omega), tail_mapFrom]; exact hne
      · by_cases ho : s + 4 ≤ d
        · -- more than a word behind
          let R : Ram := ⟨fun _ => true, fun z => if z = s then TriviumS.byte (Trivium.abs w) 0 else 1, []⟩
          have all : ∀ a m, R.Owned a m := fun _ _ _ _ => rfl
          obtain ⟨R', w', e', -, -, f, cc⟩ := triviumLoop_behind (n / 4) (n % 4) R w d s (by omega) (all _ _) (all _ _) ho
          refine ⟨R, R', w', all, e', fun he => ?_⟩
          have hb := congrArg (·[d - s]?) he
          simp only [trivium_loop_get, bytes_get] at hb
          rw [if_pos (by omega), if_pos (by omega), Option.map_some, Option.some.injEq, cc _ (by omega), show s + (d - s) = d by omega] at hb
          have c0 := cc 0 (by omega)
          rw [Nat.add_zero, Nat.add_zero, f s (by unfold Outside; omega)] at c0
          simp only [R, if_true, BitVec.xor_self] at c0
          rw [c0] at hb
          simp only [R, if_neg (show ¬ d = s by omega)] at hb
          have := congrArg (· ^^^ TriviumS.byte (Trivium.abs w) (d - s)) hb
          simp only [BitVec.xor_assoc, BitVec.xor_self, BitVec.xor_zero] at this
          exact absurd this (by decide)
        · -- the second word reads what the first has written
          let R : Ram := ⟨fun _ => true, fun z => if z = s + 4 - (d - s) then TriviumS.byte (Trivium.abs w) (4 - (d - s)) else 1, []⟩
          have all : ∀ a m, R.Owned a m := fun _ _ _ _ => rfl
          have hX := loop_four w R s
          have hl : (write32le (read32le (R.mem s) (R.mem (s + 1)) (R.mem (s + 2)) (R.mem (s + 3)) ^^^ Trivium.out w)).length = 4 := rfl
          have hq : ∃ q, n / 4 = q + 1 := ⟨n / 4 - 1, by omega⟩
          obtain ⟨q, hq⟩ := hq
          have hstep : triviumLoop (n / 4) (n % 4) R w d s = triviumLoop q (n % 4)
              (R.put d (write32le (read32le (R.mem s) (R.mem (s + 1)) (R.mem (s + 2)) (R.mem (s + 3)) ^^^ Trivium.out w))) (Trivium.update w) (d + 4) (s + 4) := by
            rw [hq, triviumLoop, read32_eq (all _ _), Option.bind_some, write32_eq (all _ _), Option.bind_some]
          generalize write32le (read32le (R.mem s) (R.mem (s + 1)) (R.mem (s + 2)) (R.mem (s + 3)) ^^^ Trivium.out w) = X at *
          have all' : ∀ a m, (R.put d X).Owned a m := fun _ _ _ _ => rfl
          obtain ⟨R', w', e', -, f, c1⟩ := triviumLoop_first q (n % 4) (R.put d X) (Trivium.update w) (d + 4) (s + 4) (by omega) (all' _ _) (all' _ _)
          refine ⟨R, R', w', all, by rw [hstep, e'], fun he => ?_⟩
          have hb := congrArg (·[4]?) he
          simp only [trivium_loop_get, bytes_get] at hb
          rw [if_pos (by omega), if_pos (by omega), Option.map_some, Option.some.injEq, c1 (by omega), byte_update, Nat.add_zero] at hb
          have h4 : (R.put d X).mem (s + 4) = 0 := by
            have hg := trivium_loop_get w (R.bytes s 4) (4 - (d - s))
            rw [hX, bytes_get, if_pos (by omega), Option.map_some, List.getElem?_eq_getElem (by rw [hl]; omega), Option.some.injEq] at hg
            have := put_mem_in (R := R) (a := d) (l := X) (i := 4 - (d - s)) (by rw [hl]; omega)
            rw [show d + (4 - (d - s)) = s + 4 by omega] at this
            rw [this, hg]
            simp only [R]
            rw [if_pos (by omega), BitVec.xor_self]
            rfl
          rw [h4] at hb
          simp only [R, if_neg (show ¬ s + 4 = s + 4 - (d - s) by omega)] at hb
          have := congrArg (· ^^^ TriviumS.byte (Trivium.abs w) 4) hb
          simp only [BitVec.xor_assoc, BitVec.xor_self, BitVec.xor_zero] at this
          exact absurd this (by decide)
    obtain ⟨R, R', w', all, er, hne⟩ := key
    obtain ⟨R1, c1, e1, b1⟩ := hall R (all _ _) (all _ _)
    rw [hres, er, Option.map_some, Option.some.injEq, Prod.mk.injEq] at e1
    apply hne
    have hl := hloop (R.bytes s n)
    rw [bytes_length] at hl
    rw [hl, ← b1, ← e1.1]
  · rintro rfl R os od
    have hl := hloop (R.bytes s 4)
    rw [bytes_length] at hl
    rw [← hl, loop_four]
    refine ⟨_, _, by rw [hres, show 4 / 4 = 0 + 1 from rfl, triviumLoop, read32_eq os, Option.bind_some, write32_eq od, Option.bind_some, triviumLoop]; rfl, ?_⟩
    exact bytes_put_same rfl

/-- C93: the affine cipher with an accepted key: byte `j` of the output is `m * a + b`, nothing else is written, and decryption
from there puts the message back. -/
theorem affine_ram {keya keyb : List Byte} (hl : keyb.length = keya.length) (hpos : 0 < keya.length) {c : Affine.Ctx}
    (hi : Affine.init keya keyb keya.length = some (0, c)) {R : Ram} {n d s : Nat} (os : R.Owned s n) (od : R.Owned d n) (h : d ≤ s ∨ s + n ≤ d) :
    ∃ R' out, affineEnc c n 0 R d s = some R' ∧ out.length = n ∧ Wrote R R' [(d, out)] [] ∧
      (∀ j < n, ∃ a b, keya[j % min keya.length 32]? = some a ∧ keyb[j % min keya.length 32]? = some b ∧ out[j]? = some (R.mem (s + j) * a + b)) ∧
      ∀ d2, R.Owned d2 n → (d2 ≤ d ∨ d + n ≤ d2) → ∃ R'', affineDec c n 0 R' d2 d = some R'' ∧ Wrote R' R'' [(d2, R.bytes s n)] [] := by
  obtain ⟨⟨out, he, hlen, hd⟩, -⟩ := Affine.affine_roundtrip_partial keya keyb hl hpos c hi (R.bytes s n)
  rw [bytes_length] at hlen
  refine ⟨R.put d out, out, affineEnc_ram n 0 R d s os od h he, hlen, wrote_put _ _ _, fun j hj => ?_, fun d2 o2 h2 => ?_⟩
  · obtain ⟨a, b, m, ha, hb, hm, ho⟩ := Affine.affine_standard keya keyb hl hpos c hi (R.bytes s n) out he j (by rw [bytes_length]; exact hj)
    rw [bytes_get, if_pos hj, Option.some.injEq] at hm
    exact ⟨a, b, ha, hb, by rw [ho, ← hm]⟩
  · have hb : (R.put d out).bytes d n = out := bytes_put_same hlen
    exact ⟨_, affineDec_ram n 0 _ d2 d (by rw [owned_put]; exact od) (by rw [owned_put]; exact o2) h2 (by rw [hb]; exact hd), wrote_put _ _ _⟩

/-- With the output starting inside the input there is, for every accepted key, a memory on which some output byte is wrong. -/
theorem affine_overlap_wrong {keya keyb : List Byte} (hl : keyb.length = keya.length) (hpos : 0 < keya.length) {c : Affine.Ctx}
    (hi : Affine.init keya keyb keya.length = some (0, c)) {n d s : Nat} (h1 : s < d) (h2 : d < s + n) :
    ∃ R R', (∀ a, R.own a = true) ∧ affineEnc c n 0 R d s = some R' ∧
      ∃ j a b, j < n ∧ keya[j % min keya.length 32]? = some a ∧ keyb[j % min keya.length 32]? = some b ∧ R'.mem (d + j) ≠ R.mem (s + j) * a + b := by
  have hok := (Affine.init_ok keya keyb hl hpos c hi).1
  obtain ⟨a, b, i, ha, hb, -, hai⟩ := hok.inv _ (keyPos_lt hok (d - s) 0 hok.pos)
  obtain ⟨R, R', ho, e, hne⟩ := byteLoop_wrong
    (F := fun i v => v * ((c.keya[keyPos c.keylen 0 i]?).getD 0) + ((c.keyb[keyPos c.keylen 0 i]?).getD 0)) h1 h2 (x := 0)
    (y := 0 * ((c.keya[keyPos c.keylen 0 0]?).getD 0) + ((c.keyb[keyPos c.keylen 0 0]?).getD 0) + 1) (by
      rw [ha, hb, Option.getD_some, Option.getD_some]
      generalize (0 : Byte) * ((c.keya[keyPos c.keylen 0 0]?).getD 0) + ((c.keyb[keyPos c.keylen 0 0]?).getD 0) = v
      intro hh
      rw [BitVec.add_left_inj] at hh
      have h3 := congrArg (· * i) hh
      simp only [BitVec.mul_assoc, hai] at h3
      rw [show v * (1 : Byte) = v from BitVec.mul_one v, show (v + 1) * (1 : Byte) = v + 1 from BitVec.mul_one _] at h3
      have h4 := congrArg (· - v) h3
      simp only [BitVec.sub_self, BitVec.add_comm v 1, BitVec.add_sub_cancel] at h4
      exact absurd h4 (by decide))
  refine ⟨R, R', ho, by rw [affine_byteLoop hok n 0 R d s hok.pos, e], ?_⟩
  by_contra hall
  push Not at hall
  apply hne
  have hm := affine_mapFrom hok (R.bytes s n) 0 hok.pos
  apply List.ext_getElem?
  intro j
  by_cases hj : j < n
  · obtain ⟨a, b, m, ha, hb, hm', ho'⟩ := Affine.affine_standard keya keyb hl hpos c hi (R.bytes s n) _ hm j (by rw [bytes_length]; exact hj)
    rw [ho', bytes_get, if_pos hj, hall j a b hj ha hb]
    rw [bytes_get, if_pos hj, Option.some.injEq] at hm'
    rw [hm']
  · rw [List.getElem?_eq_none (by rw [bytes_length]; omega), List.getElem?_eq_none (by rw [mapFrom_length, bytes_length]; omega)]

/-- C93: the Hill cipher on a message filled up with `z` zeros to whole blocks: each block of the output is the matrix times the
block of the input; `len + z` bytes are written and nothing else. -/
theorem hill_ram (c : Hill.Ctx) (hn : 0 < c.n) {R : Ram} {d s len z : Nat} (hm : (len + z) % c.n = 0) (hz : z < c.n) (os : R.Owned s len)
    (od : R.Owned d (len + z)) (h : d ≤ s ∨ s + len ≤ d) :
    ∀ key f, (key, f) ∈ [(c.key, hillEncrypt), (c.ikey, hillDecrypt)] →
    ∃ R' out, f c R d s len = some R' ∧ out.length = len + z ∧ Wrote R R' [(d, out)] [] ∧
      ∀ k, c.n * k < len → Hill.vec c.n ((out.drop (c.n * k)).take c.n) =
        (Hill.mat c.n key).mulVec (Hill.vec c.n (((R.bytes s len ++ List.replicate z 0).drop (c.n * k)).take c.n)) := by
  have main : ∀ key, ∃ R' out, hillOperate c.n key len R d s len = some R' ∧ out.length = len + z ∧ Wrote R R' [(d, out)] [] ∧
      ∀ k, c.n * k < len → Hill.vec c.n ((out.drop (c.n * k)).take c.n) =
        (Hill.mat c.n key).mulVec (Hill.vec c.n (((R.bytes s len ++ List.replicate z 0).drop (c.n * k)).take c.n)) := by
    intro key
    obtain ⟨out, e1, e2, e3⟩ := hillOperate_ram hn key len R d s len z le_rfl hm hz os od h
    refine ⟨_, out, e3, e2, wrote_put _ _ _, fun k hk => ?_⟩
    obtain ⟨bs, hb, he⟩ := Hill.exists_blocks c.n ((len + z) / c.n) (R.bytes s len ++ List.replicate z 0) (by
      have := Nat.div_add_mod (len + z) c.n
      rw [List.length_append, bytes_length, List.length_replicate]; omega)
    have hbl := Hill.flatten_length c.n bs hb
    rw [← he, List.length_append, bytes_length, List.length_replicate] at hbl
    have hlt : c.n * bs.length < c.n * (len + 1) ∨ len = 0 := by
      rcases Nat.eq_zero_or_pos len with h0 | h0
      · exact Or.inr h0
      · left
        rw [← hbl]
        have : c.n * 1 ≤ c.n * len := Nat.mul_le_mul_left _ h0
        have h1 : len ≤ c.n * len := Nat.le_mul_of_pos_left _ hn
        rw [Nat.mul_add]; omega
    have hbs : bs.length ≤ len := by
      rcases hlt with hlt | h0
      · have := Nat.lt_of_mul_lt_mul_left hlt; omega
      · omega
    rw [he, Hill.operate_blocks c.n hn key bs len hbs hb] at e1
    cases e1
    have pick : ∀ (l : List (List Byte)), (∀ b ∈ l, b.length = c.n) → ∀ k, (l.flatten.drop (c.n * k)).take c.n = (l[k]?).getD [] := by
      intro l
      induction l with
      | nil => intro _ k; simp
      | cons b l ih =>
        intro hb k
        cases k with
        | zero => rw [Nat.mul_zero, List.drop_zero, List.flatten_cons, List.take_left' (hb b (by simp))]; rfl
        | succ k =>
          rw [List.flatten_cons, List.drop_append, hb b (by simp), List.drop_of_length_le (by rw [hb b (by simp), Nat.mul_add]; omega), List.nil_append,
            show c.n * (k + 1) - c.n = c.n * k by rw [Nat.mul_add]; omega, ih (fun x hx => hb x (by simp [hx])), List.getElem?_cons_succ]
    have hk' : k < bs.length := by
      have : c.n * k < c.n * bs.length := by omega
      exact Nat.lt_of_mul_lt_mul_left this
    rw [he, pick bs hb, pick _ (by
      intro b h; obtain ⟨a, _, rfl⟩ := List.mem_map.mp h; exact Hill.vecMul_length _ _ _), List.getElem?_map, List.getElem?_eq_getElem hk', Option.map_some, Option.getD_some, Option.getD_some,
      Hill.vec_vecMul]
  intro key f hf
  simp only [List.mem_cons, Prod.mk.injEq, List.not_mem_nil, or_false] at hf
  rcases hf with ⟨rfl, rfl⟩ | ⟨rfl, rfl⟩
  · exact main c.key
  · exact main c.ikey

/-- C93, negative: a message that is not a whole number of blocks needs an output buffer of the length rounded up: otherwise the
call is undefined. -/
theorem hill_tail_ub (c : Hill.Ctx) (hn : 0 < c.n) {R : Ram} {d s len z : Nat} (hm : (len + z) % c.n = 0) (hz : z < c.n) (h : ¬ R.Owned d (len + z)) :
    hillEncrypt c R d s len = none ∧ hillDecrypt c R d s len = none := by
  constructor
  all_goals
    refine Option.eq_none_iff_forall_ne_some.2 fun R' e => h ?_
    exact hillOperate_needs hn _ _ _ _ _ _ _ _ hm hz e

/-- C93, negative: if the bytes behind the output are there, one of them that is no part of the message is overwritten. -/
theorem hill_tail_clobbers (c : Hill.Ctx) (hn : 0 < c.n) {d s len z : Nat} (hm : (len + z) % c.n = 0) (hz : z < c.n) (hz0 : 0 < z) (h : d = s ∨ d + len < s ∨ s + len ≤ d) :
    ∃ R R', (∀ a, R.own a = true) ∧ hillEncrypt c R d s len = some R' ∧ Outside (d + len) d len ∧ Outside (d + len) s len ∧ R'.mem (d + len) ≠ R.mem (d + len) := by
  obtain ⟨out, e1, e2, e3⟩ := hillOperate_ram hn c.key len (⟨fun _ => true, fun _ => 0, []⟩ : Ram) d s len z le_rfl hm hz (fun _ _ => rfl) (fun _ _ => rfl) (by omega)
  let R : Ram := ⟨fun _ => true, fun x => if x = d + len then out[len]'(by omega) + 1 else 0, []⟩
  obtain ⟨out', f1, f2, f3⟩ := hillOperate_ram hn c.key len R d s len z le_rfl hm hz (fun _ _ => rfl) (fun _ _ => rfl) (by omega)
  have hb : R.bytes s len = Ram.bytes ⟨fun _ => true, fun _ => 0, []⟩ s len := by
    apply List.ext_getElem?
    intro i
    rw [bytes_get, bytes_get]
    by_cases hi : i < len
    · rw [if_pos hi, if_pos hi]
      simp only [R]
      rw [if_neg (by omega)]
    · rw [if_neg hi, if_neg hi]
  rw [hb, e1] at f1
  cases f1
  refine ⟨R, _, fun _ => rfl, f3, by unfold Outside; omega, by unfold Outside; omega, ?_⟩
  rw [put_mem_in (by omega)]
  simp only [R, if_true]
  intro hh
  have h4 := congrArg (· - out[len]'(by omega)) hh
  simp only [BitVec.sub_self, BitVec.add_comm _ 1, BitVec.add_sub_cancel] at h4
  exact absurd h4 (by decide)

/-! ### Cases -/

/-- A memory of sixteen bytes, 1 to 16, at 100. -/
def sixteen : Ram := ⟨fun x => decide (100 ≤ x ∧ x < 116), fun x => BitVec.ofNat 8 (x - 99), []⟩

-- in place, moved down, moved up, on the same memory
example : sixteen.Owned 100 8 ∧ (100 ≤ 100 ∨ 100 + 8 ≤ 100) ∧ sixteen.Owned 104 8 ∧ (100 ≤ 104 ∨ 104 + 8 ≤ 100) ∧ (100 < 104 ∧ 104 < 100 + 8) := by
  refine ⟨?_, by omega, ?_, by omega, by omega, by omega⟩ <;>
  · intro i hi; simp [sixteen]; omega

-- a key accepted by the affine cipher
example : ∃ c, Affine.init [3, 5] [1, 2] 2 = some (0, c) := by
  obtain ⟨r, c, h, hr, hh⟩ := Affine.affine_init_iff [3, 5] [1, 2] rfl
  have : r = 0 := hh.2 (by decide +kernel)
  subst this
  exact ⟨c, h⟩

-- a block and a half with dimension 2
example : (3 + 1) % 2 = 0 ∧ 1 < 2 ∧ sixteen.Owned 100 3 ∧ sixteen.Owned 100 (3 + 1) ∧ ¬ sixteen.Owned 113 (3 + 1) := by
  refine ⟨rfl, by omega, ?_, ?_, ?_⟩
  · intro i hi; simp [sixteen]; omega
  · intro i hi; simp [sixteen]; omega
  · intro h
    have := h 3 (by omega)
    simp [sixteen] at this

end Verif.Ram
