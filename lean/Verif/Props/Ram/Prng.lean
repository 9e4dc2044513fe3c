import Verif.Lemmas.Ram.Prng
import Verif.Props.Ram.Cmac
/-!
# C105: the AES based generator on buffers in memory

`init`, `rand` and `run` of Model/Ram/Prng read and write a flat memory; an access to memory which the caller does not own, or a
copy between ranges which meet, is the outcome `none`.
-/
namespace Verif.RamPrng
open Verif.Ram Verif.RamHash
open Verif.PrngAes (St At outByte seedKey seedCtr seg)

/-- The buffers of the requests, each with its part of the stream `f`, from byte `m` of it on. -/
def pieces (f : Nat → Byte) : Nat → List (Nat × Nat) → List (Nat × List Byte)
  | _, [] => []
  | m, q :: qs => (q.1, (List.range q.2).map fun i => f (m + i)) :: pieces f (m + q.2) qs

/-- The bytes of the seed; a null pointer counts as an empty seed, whatever its size. -/
def seedBytes (R : Ram) (seed : Option Nat) (n : Nat) : List Byte := (seed.map fun p => R.bytes p n).getD []

/-- Where the parts may lie.  The buffers of the requests may lie over the seed. -/
structure Places (R : Ram) (A : Arrays) (seed : Option Nat) (n : Nat) (reqs : List (Nat × Nat)) : Prop where
  owned : ∀ p ∈ [A.ctr, A.lo, A.key], R.Owned p 16
  apart : Apart A.ctr 16 A.lo 16
  seed : ∀ p, seed = some p → R.Owned p n ∧ Apart A.key 16 p n ∧ Apart A.ctr 16 p n
  each : reqs.Pairwise fun q r => Apart q.1 q.2 r.1 r.2
  reqs : ∀ q ∈ reqs, R.Owned q.1 q.2 ∧ Apart A.ctr 16 q.1 q.2 ∧ Apart A.lo 16 q.1 q.2

theorem seg_eq (seed : List Byte) (m k : Nat) :
    seg (seedKey seed) (Modes.beVal (seedCtr seed)) m k = (List.range k).map fun i => outByte seed (m + i) := by
  rw [seg, List.range'_eq_map_range, List.map_map]
  rfl

theorem rands_eq {A : Arrays} {c : Aes.Ctx} {sd : List Byte} (hc : Aes.keySet (seedKey sd) = some c)
    (acl : Apart A.ctr 16 A.lo 16) : ∀ (reqs : List (Nat × Nat)) (R : Ram) (g : Rest) (s : St) (m : Nat), Holds A R g s →
    At c (seedKey sd) (Modes.beVal (seedCtr sd)) m s → R.Owned A.ctr 16 → R.Owned A.lo 16 →
    (∀ q ∈ reqs, R.Owned q.1 q.2 ∧ Apart A.ctr 16 q.1 q.2 ∧ Apart A.lo 16 q.1 q.2) →
    reqs.Pairwise (fun q r => Apart q.1 q.2 r.1 r.2) →
    ∃ R' g', rands A R g reqs = some (R', g') ∧ (∀ w ∈ pieces (outByte sd) m reqs, R'.bytes w.1 w.2.length = w.2) ∧
      Wrote R R' [] (reqs ++ [(A.ctr, 16), (A.lo, 16)])
  | [], R, g, s, m, _, _, _, _, _, _ => ⟨R, g, rfl, by simp [pieces], wrote_refl _ _⟩
  | q :: qs, R, g, s, m, h, ha, oc, ol, hq, hp => by
    obtain ⟨ob, a1, a2⟩ := hq q (by simp)
    obtain ⟨R1, g1, e1, h1, l1, b1, w1⟩ := rand_holds h oc ol ob acl a1 a2
    obtain ⟨s1, s2⟩ := PrngAes.rand_spec (Or.inl (by simp [seedKey]; omega)) hc q.2 m s ha
    obtain ⟨R2, g2, e2, b2, w2⟩ := rands_eq hc acl qs R1 g1 _ (m + q.2) h1 s2 (owned_same w1.own oc) (owned_same w1.own ol)
      (fun r hr => ⟨owned_same w1.own (hq r (by simp [hr])).1, (hq r (by simp [hr])).2⟩) (List.pairwise_cons.1 hp).2
    refine ⟨R2, g2, by rw [rands, e1]; exact e2, ?_, ?_⟩
    · intro w hw
      rw [pieces, List.mem_cons] at hw
      rcases hw with rfl | hw
      · dsimp only
        rw [List.length_map, List.length_range, ← seg_eq, ← s1, ← b1]
        refine wrote_bytes w2 fun r hr => ?_
        rw [List.mem_append, List.mem_cons, List.mem_singleton] at hr
        rcases hr with hr | rfl | rfl
        · exact ((List.pairwise_cons.1 hp).1 r hr).flip
        · exact a1
        · exact a2
      · exact b2 w hw
    · refine wrote_trans (wrote_mono w1 ?_) (wrote_mono w2 ?_)
      · intro r hr
        simp only [List.mem_cons, List.not_mem_nil, or_false] at hr
        rcases hr with rfl | rfl | rfl <;> simp
      · intro r hr
        simp only [List.mem_append, List.mem_cons, List.not_mem_nil, or_false] at hr ⊢
        tauto

theorem pieces_ranges (f : Nat → Byte) : ∀ (reqs : List (Nat × Nat)) (m : Nat) (q : Nat × Nat), q ∈ reqs →
    ∃ w ∈ pieces f m reqs, w.1 = q.1 ∧ w.2.length = q.2
  | r :: rs, m, q, h => by
    rcases List.mem_cons.1 h with rfl | h
    · exact ⟨_, by rw [pieces]; exact List.mem_cons_self, rfl, by simp⟩
    · obtain ⟨w, h1, h2⟩ := pieces_ranges f rs (m + r.2) q h
      exact ⟨w, by rw [pieces]; exact List.mem_cons_of_mem _ h1, h2⟩

/-- A block filled from a buffer of `n` bytes, as far as it goes. -/
theorem fill_copy {R : Ram} {a p n : Nat} (h1 : R.Owned a 16) (h2 : R.Owned p n) (h3 : Apart a 16 p n) (hn : n ≤ 16) :
    memcpy (R.put a (List.replicate 16 0)) a p n = some (R.put a (R.bytes p n ++ List.replicate (16 - n) 0)) := by
  rw [memcpy_eq (by ownof h2) (by ownof h1) (by apof h3), bytes_put_apart (by rw [List.length_replicate]; apof h3)]
  have := put_put_in (R := R) (a := a) (i := 0) (l := List.replicate 16 0) (d := R.bytes p n)
    (by rw [bytes_length, List.length_replicate]; omega)
  rw [Nat.add_zero] at this
  rw [this]
  rw [Hash.Blk.copyTo, bytes_length, List.take_zero, List.nil_append, Nat.zero_add, List.drop_replicate]

theorem init_eq {R : Ram} {A : Arrays} {seed : Option Nat} {n : Nat} (ho : ∀ p ∈ [A.ctr, A.lo, A.key], R.Owned p 16)
    (hs : ∀ p, seed = some p → R.Owned p n ∧ Apart A.key 16 p n ∧ Apart A.ctr 16 p n) :
    ∃ c R' g s, Aes.keySet (seedKey (seedBytes R seed n)) = some c ∧ init A R seed n = some (R', g) ∧ Holds A R' g s ∧
      At c (seedKey (seedBytes R seed n)) (Modes.beVal (seedCtr (seedBytes R seed n))) 0 s ∧
      Wrote R R' [] [(A.ctr, 16), (A.key, 16)] := by
  have o1 := ho A.ctr (by simp)
  have o3 := ho A.key (by simp)
  have key : ∀ k v : List Byte, k.length = 16 → v.length = 16 → (∀ l, PrngAes.init l (seed.map fun p => R.bytes p n) =
        (Aes.keySet k).map fun aes => ⟨aes, 0, v, l⟩) →
      init A R seed n = (Aes.keySet k).map (fun aes => ((R.put A.key k).put A.ctr v, ⟨aes, 0⟩)) →
      ∃ c R' g s, Aes.keySet (seedKey (seedBytes R seed n)) = some c ∧ init A R seed n = some (R', g) ∧ Holds A R' g s ∧
      At c (seedKey (seedBytes R seed n)) (Modes.beVal (seedCtr (seedBytes R seed n))) 0 s ∧
      Wrote R R' [] [(A.ctr, 16), (A.key, 16)] := by
    intro k v hk hv h1 h2
    obtain ⟨c, s, e1, e2, e3⟩ := PrngAes.init_spec (((R.put A.key k).put A.ctr v).bytes A.lo 16) (seed.map fun p => R.bytes p n)
    rw [h1, Option.map_eq_some_iff] at e2
    obtain ⟨c', e4, rfl⟩ := e2
    rw [e4] at h2
    refine ⟨c, _, _, _, e1, h2, ⟨rfl, rfl, bytes_put_same hv, rfl, Nat.zero_lt_succ _⟩, e3, ?_⟩
    exact RamHash.wrote_put _ _ hv (by simp) (RamHash.wrote_put _ _ hk (by simp) (wrote_refl _ _))
  cases seed with
  | none =>
    refine key (List.replicate 16 0) (List.replicate 16 0) rfl rfl (fun l => rfl) ?_
    unfold init
    dsimp only
    rw [fill_eq _ o3, Option.bind_some, Option.bind_some, if_pos (by ownof o3), bytes_put_same List.length_replicate]
    rcases Aes.keySet (List.replicate 16 0) with _ | c
    · rfl
    · rw [Option.bind_some]
      dsimp only [Option.map_none]
      rw [fill_eq _ (by ownof o1), Option.bind_some]
      rfl
  | some p =>
    obtain ⟨h1, h2, h3⟩ := hs p rfl
    have l1 : (R.bytes p (min n 16) ++ List.replicate (16 - min n 16) 0).length = 16 := by
      rw [List.length_append, bytes_length, List.length_replicate]; omega
    have l2 : (R.bytes (p + min n 16) (min (n - min n 16) 16) ++ List.replicate (16 - min (n - min n 16) 16) 0).length = 16 := by
      rw [List.length_append, bytes_length, List.length_replicate]; omega
    refine key _ _ l1 l2 (fun l => ?_) ?_
    · have q1 : R.bytes p (min n 16) = (R.bytes p n).take (min n 16) := bytes_take rfl (by omega)
      have q2 : R.bytes (p + min n 16) (n - min n 16) = (R.bytes p n).drop (min n 16) := bytes_drop rfl (by omega)
      have q3 : R.bytes (p + min n 16) (min (n - min n 16) 16) =
        (R.bytes (p + min n 16) (n - min n 16)).take (min (n - min n 16) 16) := bytes_take rfl (by omega)
      unfold PrngAes.init
      dsimp only [Option.map_some, Option.getD_some]
      rw [bytes_length, List.length_drop, bytes_length, ← q1, ← q2, ← q3]
    · unfold init
      dsimp only
      rw [fill_eq _ o3, Option.bind_some, fill_copy o3 (by ownof h1) (by apof h2) (by omega), Option.bind_some,
        if_pos (by ownof o3), bytes_put_same l1]
      rcases Aes.keySet _ with _ | c
      · rfl
      · rw [Option.bind_some]
        dsimp only [Option.map_some]
        rw [fill_eq _ (by ownof o1), Option.bind_some, fill_copy (by ownof o1) (by ownof h1) (by apof h3) (by omega),
          bytes_put_apart (by rw [l1]; apof h2)]
        rfl

/-- C105: after seeding, however the requests are sized, no access is undefined, the buffers hold consecutive parts of the AES
counter mode stream of the seed, and nothing changes but they and the arrays of the generator. -/
theorem ram_prng {R : Ram} {A : Arrays} {seed : Option Nat} {n : Nat} {reqs : List (Nat × Nat)} (hp : Places R A seed n reqs) :
    ∃ R', run A R seed n reqs = some R' ∧
      Wrote R R' (pieces (outByte (seedBytes R seed n)) 0 reqs) [(A.ctr, 16), (A.lo, 16), (A.key, 16)] := by
  obtain ⟨c, R1, g, s, e1, e2, h, ha, w1⟩ := init_eq hp.owned hp.seed
  obtain ⟨R2, g2, e3, b, w2⟩ := rands_eq e1 hp.apart reqs R1 g s 0 h ha (owned_same w1.own (hp.owned _ (by simp)))
    (owned_same w1.own (hp.owned _ (by simp))) (fun q hq => ⟨owned_same w1.own (hp.reqs q hq).1, (hp.reqs q hq).2⟩) hp.each
  refine ⟨R2, by rw [run, e2, Option.bind_some, e3]; rfl, w2.own.trans w1.own, w2.tmp.trans w1.tmp, b, fun x h1 h2 => ?_⟩
  rw [w2.else_ x (by simp), w1.else_ x (by simp)]
  · intro r hr
    simp only [List.mem_cons, List.not_mem_nil, or_false] at hr
    rcases hr with rfl | rfl <;> exact h2 _ (by simp)
  · intro r hr
    simp only [List.mem_append, List.mem_cons, List.not_mem_nil, or_false] at hr
    rcases hr with hr | rfl | rfl
    · obtain ⟨w, k1, k2, k3⟩ := pieces_ranges (outByte (seedBytes R seed n)) reqs 0 r hr
      have := h1 w k1
      rwa [k2, k3] at this
    · exact h2 _ (by simp)
    · exact h2 _ (by simp)

-- a seed of 20 bytes; requests of 5, 0, 40 and 16 bytes, the first over the seed
example : Places RamHash.exRam ⟨500, 516, 532⟩ (some 100) 20 [(110, 5), (0, 0), (200, 40), (240, 16)] where
  owned := by
    intro p h
    apply RamHash.exRam_owned
    simp only [List.mem_cons, List.not_mem_nil, or_false] at h
    rcases h with rfl | rfl | rfl <;> decide
  apart := by decide
  seed := by
    intro p h
    obtain rfl := Option.some.inj h
    exact ⟨RamHash.exRam_owned (by decide), by decide, by decide⟩
  reqs := by
    intro q h
    simp only [List.mem_cons, List.not_mem_nil, or_false] at h
    rcases h with rfl | rfl | rfl | rfl <;> exact ⟨RamHash.exRam_owned (by decide), by decide, by decide⟩
  each := by decide

end Verif.RamPrng
