import Verif.Model.Prng.Aes
import Verif.Props.Crypt.Aes
import Verif.Lemmas.Modes.Ctr
/-!
# C45: the AES based generator
-/
namespace Verif.PrngAes
open Verif.Modes

/-- The key taken from a seed: its first 16 bytes, filled with zeros. -/
def seedKey (seed : List Byte) : List Byte := seed.take 16 ++ List.replicate (16 - seed.length) 0

/-- The first counter: the next 16 bytes of the seed, filled with zeros. -/
def seedCtr (seed : List Byte) : List Byte := (seed.drop 16).take 16 ++ List.replicate (32 - seed.length) 0 |>.take 16

/-- Byte `m` of the output for a seed: a byte of the AES encryption of the counter advanced by `m / 16`. -/
def outByte (seed : List Byte) (m : Nat) : Byte :=
  (AesS.encrypt (seedKey seed) (encodeBE 16 (Modes.beVal (seedCtr seed) + m / 16))).getD (m % 16) 0

theorem ctrInc_spec : ∀ (i n : Nat) (r : List Byte), ctrInc i (encodeBE i n ++ r) = encodeBE i (n + 1) ++ r
  | 0, n, r => rfl
  | i + 1, n, r => by
    rw [ctrInc, encodeBE, List.append_assoc, List.singleton_append, modify_last (encodeBE_length i _), encodeBE_succ]
    have hget : (encodeBE i (n / 256) ++ (BitVec.ofNat 8 n + 1) :: r)[i]? = some (BitVec.ofNat 8 n + 1) := by
      rw [List.getElem?_append_right (by rw [encodeBE_length]), encodeBE_length]; simp
    rw [hget]
    by_cases h0 : BitVec.ofNat 8 n + 1 = 0#8
    · rw [if_pos h0, h0, if_pos (by rfl), ctrInc_spec i, List.append_assoc]; rfl
    · rw [if_neg h0, if_neg (by simpa using h0), List.append_assoc]; rfl

theorem ctrInc_encode (n : Nat) : ctrInc 16 (encodeBE 16 n) = encodeBE 16 (n + 1) := by
  have := ctrInc_spec 16 n []
  simpa using this

/-- The state after `m` bytes of output. -/
structure At (c : Aes.Ctx) (key : List Byte) (n0 : Nat) (m : Nat) (s : St) : Prop where
  aes : s.aes = c
  ix : s.ix = m % 16
  ctr : s.ctr = encodeBE 16 (n0 + (m + 15) / 16)
  lo : m % 16 ≠ 0 → s.lo = AesS.encrypt key (encodeBE 16 (n0 + m / 16))

/-- Bytes `m .. m+k-1` of the stream. -/
def seg (key : List Byte) (n0 m k : Nat) : List Byte :=
  (List.range' m k).map fun j => (AesS.encrypt key (encodeBE 16 (n0 + j / 16))).getD (j % 16) 0

theorem seg_add (key : List Byte) (n0 m a b : Nat) : seg key n0 m (a + b) = seg key n0 m a ++ seg key n0 (m + a) b := by
  rw [seg, seg, seg, ← List.map_append, List.range'_append_1]

theorem encrypt_length (key b : List Byte) : (AesS.encrypt key b).length = 16 := rfl

theorem encrypt_one {key : List Byte} (hk : Aes.KeySize key) {c : Aes.Ctx} (hc : Aes.keySet key = some c) (n : Nat) :
    Aes.encrypt c (encodeBE 16 n) = (AesS.encrypt key (encodeBE 16 n), c) := by
  obtain ⟨c', h1, h2⟩ := Aes.encrypt_fips hk [encodeBE 16 n] (by simp [encodeBE_length]) [] (by simp)
  rw [hc] at h1
  obtain rfl := Option.some.inj h1
  simpa using h2

theorem seg_block (key : List Byte) (n0 m k : Nat) (hm : m % 16 = 0) (hk : k ≤ 16) :
    seg key n0 m k = (AesS.encrypt key (encodeBE 16 (n0 + m / 16))).take k := by
  apply List.ext_getElem
  · rw [seg, List.length_map, List.length_range', List.length_take, encrypt_length]; omega
  · intro i h1 h2
    have hi : i < k := by rw [seg, List.length_map, List.length_range'] at h1; exact h1
    simp only [seg, List.getElem_map, List.getElem_range', List.getElem_take]
    rw [show (m + 1 * i) / 16 = m / 16 by omega, show (m + 1 * i) % 16 = i by omega, List.getD_eq_getElem?_getD,
      List.getElem?_eq_getElem (by rw [encrypt_length]; omega)]
    rfl

theorem residual_spec {c : Aes.Ctx} {key : List Byte} {n0 : Nat} : ∀ (siz m : Nat) (s : St), At c key n0 m s →
    ∃ a b, a + b = siz ∧ (residual s siz).1 = seg key n0 m a ∧ (residual s siz).2.2 = b ∧
      At c key n0 (m + a) (residual s siz).2.1 ∧ (b = 0 ∨ (m + a) % 16 = 0)
  | 0, m, s, h => ⟨0, 0, rfl, rfl, rfl, h, Or.inl rfl⟩
  | siz + 1, m, s, h => by
    rw [residual]
    by_cases h0 : s.ix ≠ 0
    · rw [if_pos h0]
      have hm : m % 16 ≠ 0 := by rw [← h.ix]; exact h0
      have hn : At c key n0 (m + 1) { s with ix := (s.ix + 1) % 16 } := by
        refine ⟨h.aes, ?_, ?_, ?_⟩
        · show (s.ix + 1) % 16 = _
          rw [h.ix]; omega
        · show s.ctr = _
          rw [h.ctr]; congr 1; omega
        · intro h1
          show s.lo = _
          rw [h.lo hm]; congr 2; omega
      obtain ⟨a, b, e1, e2, e3, e4, e5⟩ := residual_spec siz (m + 1) _ hn
      refine ⟨1 + a, b, by omega, ?_, e3, by rw [← Nat.add_assoc]; exact e4, by rw [← Nat.add_assoc]; exact e5⟩
      dsimp only
      rw [seg_add, e2, h.lo hm, h.ix]
      rfl
    · rw [if_neg h0]
      refine ⟨0, siz + 1, by omega, rfl, rfl, h, Or.inr ?_⟩
      rw [Nat.add_zero, ← h.ix]; simpa using h0

theorem blocks_spec {c : Aes.Ctx} {key : List Byte} (hk : Aes.KeySize key) (hc : Aes.keySet key = some c) {n0 : Nat} :
    ∀ (n m : Nat) (s : St), At c key n0 m s → (n = 0 ∨ m % 16 = 0) →
    (blocks s n).1 = seg key n0 m (16 * n) ∧ At c key n0 (m + 16 * n) (blocks s n).2
  | 0, m, s, h, _ => ⟨rfl, h⟩
  | n + 1, m, s, h, h0 => by
    have hm : m % 16 = 0 := by rcases h0 with h0 | h0 <;> omega
    have hctr : s.ctr = encodeBE 16 (n0 + m / 16) := by rw [h.ctr]; congr 1; omega
    have he : Aes.encrypt s.aes s.ctr = (AesS.encrypt key (encodeBE 16 (n0 + m / 16)), c) := by
      rw [h.aes, hctr, encrypt_one hk hc]
    have hn : At c key n0 (m + 16) { s with aes := c, ctr := ctrInc 16 s.ctr } := by
      refine ⟨rfl, ?_, ?_, fun h1 => absurd h1 (by omega)⟩
      · show s.ix = _
        rw [h.ix]; omega
      · show ctrInc 16 s.ctr = _
        rw [hctr, ctrInc_encode]; congr 1; omega
    obtain ⟨e1, e2⟩ := blocks_spec hk hc n (m + 16) _ hn (Or.inr (by omega))
    rw [blocks, he]
    dsimp only
    refine ⟨?_, by rw [show m + 16 * (n + 1) = m + 16 + 16 * n by omega]; exact e2⟩
    rw [e1, show 16 * (n + 1) = 16 + 16 * n by omega, seg_add, seg_block _ _ _ _ hm (le_refl _), List.take_of_length_le]
    rw [encrypt_length]

theorem rand_spec {c : Aes.Ctx} {key : List Byte} (hk : Aes.KeySize key) (hc : Aes.keySet key = some c) {n0 : Nat}
    (siz m : Nat) (s : St) (h : At c key n0 m s) :
    (rand s siz).1 = seg key n0 m siz ∧ At c key n0 (m + siz) (rand s siz).2 := by
  obtain ⟨a, b, e1, e2, e3, e4, e5⟩ := residual_spec siz m s h
  unfold rand
  generalize residual s siz = r at *
  obtain ⟨o1, s1, b1⟩ := r
  dsimp only at *
  subst e3
  obtain ⟨f1, f2⟩ := blocks_spec hk hc (b1 / 16) (m + a) s1 e4 (by omega)
  generalize blocks s1 (b1 / 16) = r2 at *
  obtain ⟨o2, s2⟩ := r2
  dsimp only at *
  by_cases hb : b1 % 16 = 0
  · rw [if_neg (by simpa using hb)]
    dsimp only
    have : siz = a + 16 * (b1 / 16) := by omega
    rw [this, seg_add, e2, f1]
    exact ⟨rfl, by rw [← Nat.add_assoc]; exact f2⟩
  · rw [if_pos hb]
    have hm : (m + a + 16 * (b1 / 16)) % 16 = 0 := by omega
    have hctr : s2.ctr = encodeBE 16 (n0 + (m + a + 16 * (b1 / 16)) / 16) := by rw [f2.ctr]; congr 1; omega
    have he : Aes.encrypt s2.aes s2.ctr = (AesS.encrypt key (encodeBE 16 (n0 + (m + a + 16 * (b1 / 16)) / 16)), c) := by
      rw [f2.aes, hctr, encrypt_one hk hc]
    rw [he]
    dsimp only
    have : siz = a + 16 * (b1 / 16) + b1 % 16 := by omega
    refine ⟨?_, rfl, ?_, ?_, ?_⟩
    · conv_rhs => rw [this, seg_add, seg_add]
      rw [e2, f1, ← Nat.add_assoc, seg_block _ _ _ _ hm (by omega)]
    · show b1 % 16 = _
      omega
    · show ctrInc 16 s2.ctr = _
      rw [hctr, ctrInc_encode]; congr 1; omega
    · intro _
      show AesS.encrypt key _ = _
      congr 2; omega

/-- A sequence of requests: the bytes of all of them. -/
def requests (s : St) : List Nat → List Byte
  | [] => []
  | n :: ns => (rand s n).1 ++ requests (rand s n).2 ns

theorem requests_spec {c : Aes.Ctx} {key : List Byte} (hk : Aes.KeySize key) (hc : Aes.keySet key = some c) {n0 : Nat} :
    ∀ (ns : List Nat) (m : Nat) (s : St), At c key n0 m s → requests s ns = seg key n0 m ns.sum
  | [], m, s, h => rfl
  | n :: ns, m, s, h => by
    obtain ⟨h1, h2⟩ := rand_spec hk hc n m s h
    rw [requests, h1, requests_spec hk hc ns _ _ h2, List.sum_cons, seg_add]

theorem init_spec (lo : List Byte) (seed : Option (List Byte)) : ∃ c s, Aes.keySet (seedKey (seed.getD [])) = some c ∧
    init lo seed = some s ∧ At c (seedKey (seed.getD [])) (Modes.beVal (seedCtr (seed.getD []))) 0 s := by
  generalize hl : seed.getD [] = l
  have hkl : (seedKey l).length = 16 := by simp [seedKey]; omega
  have hcl : (seedCtr l).length = 16 := by simp [seedCtr]; omega
  obtain ⟨c, h1, -⟩ := Aes.encrypt_fips (Or.inl hkl) [] (by simp) [] (by simp)
  have e1 : l.take (min l.length 16) ++ List.replicate (16 - min l.length 16) 0 = seedKey l := by
    rw [seedKey]
    rcases Nat.le_total l.length 16 with h | h
    · rw [Nat.min_eq_left h, List.take_of_length_le (l := l) (le_refl _), List.take_of_length_le (l := l) h]
    · rw [Nat.min_eq_right h, show 16 - l.length = 0 by omega]
  have e2 : (l.drop (min l.length 16)).take (min (l.drop (min l.length 16)).length 16) ++
      List.replicate (16 - min (l.drop (min l.length 16)).length 16) 0 = seedCtr l := by
    rw [seedCtr]
    rcases Nat.le_total l.length 16 with h | h
    · rw [Nat.min_eq_left h, List.drop_of_length_le (l := l) (le_refl _), List.drop_of_length_le (l := l) h]
      rw [List.take_nil, List.take_nil, List.nil_append, List.nil_append, List.take_replicate,
        Nat.min_eq_left (by omega : 16 ≤ 32 - l.length)]
      rfl
    · rw [Nat.min_eq_right h]
      generalize hd : l.drop 16 = d
      have hdl : d.length = l.length - 16 := by rw [← hd, List.length_drop]
      rw [show 32 - l.length = 16 - d.length by omega]
      rcases Nat.le_total d.length 16 with h' | h'
      · rw [Nat.min_eq_left h', List.take_of_length_le (l := d) (le_refl _), List.take_of_length_le (l := d) h',
          List.take_of_length_le]
        simp; omega
      · rw [Nat.min_eq_right h', show 16 - d.length = 0 by omega]
        simp [List.take_take]
  refine ⟨c, ⟨c, 0, seedCtr l, lo⟩, h1, ?_, rfl, rfl, ?_, fun h => absurd rfl h⟩
  · unfold init
    dsimp only
    rw [hl, e1, e2, h1]
    rfl
  · show seedCtr l = encodeBE 16 _
    have := encodeBE_beVal (seedCtr l)
    rw [hcl] at this
    exact this.symm

/-- After seeding, whatever the generator did before, the bytes of any sequence of requests are the first bytes of one
stream that depends on the seed only: AES in counter mode. -/
theorem prngAes_stream (lo : List Byte) (seed : Option (List Byte)) (ns : List Nat) :
    ∃ s, init lo seed = some s ∧ requests s ns = (List.range ns.sum).map (outByte (seed.getD [])) := by
  obtain ⟨c, s, h1, h2, h3⟩ := init_spec lo seed
  refine ⟨s, h2, ?_⟩
  rw [requests_spec (Or.inl (by simp [seedKey]; omega)) h1 ns 0 s h3, seg, List.range_eq_range']
  rfl

/-- Two sequences of requests with the same total give the same bytes. -/
theorem prngAes_chunks (lo lo' : List Byte) (seed : Option (List Byte)) (ns ns' : List Nat) (h : ns.sum = ns'.sum) :
    ∃ s s', init lo seed = some s ∧ init lo' seed = some s' ∧ requests s ns = requests s' ns' := by
  obtain ⟨s, h1, h2⟩ := prngAes_stream lo seed ns
  obtain ⟨s', h1', h2'⟩ := prngAes_stream lo' seed ns'
  exact ⟨s, s', h1, h1', by rw [h2, h2', h]⟩

example : ([5, 0, 20, 16] : List Nat).sum = [41].sum := by decide

/-- A generator that was never seeded is seeded with an empty seed. -/
theorem prngAes_unseeded (n : Nat) : ∃ s, init (List.replicate 16 0) none = some s ∧ randAny none n = some (rand s n) := by
  obtain ⟨c, s, h1, h2, h3⟩ := init_spec (List.replicate 16 0) none
  exact ⟨s, h2, by rw [randAny, h2]; rfl⟩

end Verif.PrngAes
