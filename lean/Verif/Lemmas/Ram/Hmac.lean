import Verif.Model.Ram.Hmac
import Verif.Lemmas.Ram.HashItf
import Verif.Lemmas.Modes.Mac
/-! HMAC on memory. -/
namespace Verif.RamHash
open Verif.Ram Verif.Hash
open Verif.Modes (xorB hmacPad hmacS)

variable {R : Ram}

theorem copyTo_cons {l : List Byte} {i : Nat} (h : i < l.length) (v : Byte) (d : List Byte) :
    Blk.copyTo (l.set i v) (i + 1) d = Blk.copyTo l i (v :: d) := by
  unfold Blk.copyTo
  rw [Sha256.take_set_succ h, List.drop_set_of_lt (by omega), List.length_cons]
  simp [Nat.add_assoc, Nat.add_comm 1 d.length]

theorem padLoop_eq {key pad : Nat} (hk : R.Owned key 64) (hp : R.Owned pad 64) (ha : Apart key 64 pad 64) :
    ∀ (n i : Nat) (l : List Byte), l.length = 64 → i + n ≤ 64 →
    padLoop key pad (R.put pad l) i n =
      some (R.put pad (Blk.copyTo l i (xorB ((l.drop i).take n) (R.bytes (key + i) n))))
  | 0, i, l, _, _ => by simp [padLoop, Blk.copyTo, xorB]
  | n + 1, i, l, hl, h => by
    have h1 : (R.put pad l).mem (key + i) = R.mem (key + i) := put_mem_out (by rw [hl]; unfold Apart at ha; omega)
    have h2 : (R.put pad l).mem (pad + i) = l[i]'(by omega) := put_mem_in (by omega)
    rw [padLoop, if_pos (by omega), load_eq (by ownof hp), Option.bind_some, load_eq (by ownof hk), Option.bind_some,
      store_eq (by ownof hp), Option.bind_some, h1, h2, put_put_at _ (by omega),
      padLoop_eq hk hp ha n (i + 1) _ (by rw [List.length_set, hl]) (by omega), copyTo_cons (by omega),
      List.drop_set_of_lt (by omega), List.drop_eq_getElem_cons (i := i) (by omega), bytes_cons, List.take_succ_cons]
    rfl

/-- More turns than the arrays have bytes. -/
theorem padLoop_over {key pad : Nat} : ∀ (n i : Nat) (R : Ram), 64 < i + n → i ≤ 64 → padLoop key pad R i n = none
  | 0, i, R, h, h' => by omega
  | n + 1, i, R, h, h' => by
    rw [padLoop]
    split
    · cases load R (pad + i) with
      | none => rfl
      | some x =>
        cases load R (key + i) with
        | none => rfl
        | some k =>
          rw [Option.bind_some, Option.bind_some]
          cases store R (pad + i) (x ^^^ k) with
          | none => rfl
          | some R' => rw [Option.bind_some]; exact padLoop_over n (i + 1) R' (by omega) (by omega)
    · rfl

theorem pad_eq {key pad : Nat} (hk : R.Owned key 64) (hp : R.Owned pad 64) (ha : Apart key 64 pad 64) (v : Byte)
    {K : List Byte} (hK : R.bytes key K.length = K) (hl : K.length ≤ 64) :
    (fill R pad v 64).bind (fun R => padLoop key pad R 0 K.length) = some (R.put pad (hmacPad v K)) ∧
      (hmacPad v K).length = 64 := by
  constructor
  · rw [fill_eq _ hp, Option.bind_some, padLoop_eq hk hp ha _ _ _ (by simp) (by omega), Nat.add_zero, hK]
    have : (xorB ((List.replicate 64 v).take K.length) K).length = K.length := by
      simp [xorB]; omega
    unfold Blk.copyTo hmacPad
    rw [List.drop_zero, List.take_zero, List.nil_append, this, Nat.zero_add]
    rfl
  · rw [Verif.Modes.hmacPad_spec v hl, Verif.Modes.xorB_length]; simp; omega

section
variable {κ : Type} {H : Itf κ} {f : List Byte → List Byte} {dat B hl N : Nat} {scr : List (Nat × Nat)}
  {Is : List Byte → κ → List Byte → Prop}

theorem start_eq (h : Computes H f dat B hl N scr Is) (hN : 64 ≤ N) {key pad : Nat} (ho : R.Owned dat B)
    (hk : R.Owned key 64) (hp : R.Owned pad 64) (ha : Apart key 64 pad 64) (hd : Apart dat B pad 64) (v : Byte)
    {K : List Byte} (hK : R.bytes key K.length = K) (hKl : K.length ≤ 64) :
    ∃ l c, hmacStart H key pad R v K.length = some ((R.put pad (hmacPad v K)).put dat l, c) ∧ Is l c (hmacPad v K) := by
  obtain ⟨e, hl⟩ := pad_eq hk hp ha v hK hKl
  obtain ⟨l, c, e1, i1⟩ := h.init (R := R.put pad (hmacPad v K)) (by ownof ho)
  obtain ⟨l', c', e2, i2⟩ := h.update (R := R.put pad (hmacPad v K)) (p := pad) (n := 64) i1 (by ownof ho) (by ownof hp) hd hN
  refine ⟨l', c', ?_, ?_⟩
  · have hb := Option.bind_assoc (fill R pad v 64) (fun R => padLoop key pad R 0 K.length)
      (fun R => (H.init R).bind fun r => H.update r.1 r.2 pad 64)
    rw [hmacStart, ← hb, e, Option.bind_some, e1, Option.bind_some, e2]
  · rwa [bytes_put_same hl, List.nil_append] at i2

/-- The ranges of the context and of the local arrays. -/
def ranges (dat B key pad : Nat) (scr : List (Nat × Nat)) : List (Nat × Nat) := (dat, B) :: (key, 64) :: (pad, 64) :: scr

theorem owned_of {Q : Ram} {rs : List (Nat × Nat)} (w : Q.own = R.own) (h : AllOwned R rs) : AllOwned Q rs := by
  intro p hp i hi
  rw [w]; exact h p hp i hi

theorem owned_same {Q : Ram} {a n : Nat} (w : Q.own = R.own) (h : R.Owned a n) : Q.Owned a n := by
  intro i hi
  rw [w]; exact h i hi

/-- A range apart from everything that may have changed is as it was. -/
theorem wrote_bytes {Q : Ram} {rs : List (Nat × Nat)} (w : Wrote R Q [] rs) {a n : Nat}
    (h : ∀ r ∈ rs, Apart r.1 r.2 a n) : Q.bytes a n = R.bytes a n := by
  apply bytes_ext
  intro i hi
  refine w.else_ _ (by simp) fun r hr => ?_
  have := h r hr
  unfold Apart at this
  unfold Outside
  omega

theorem wrote_mono {Q : Ram} {rs rs' : List (Nat × Nat)} (w : Wrote R Q [] rs) (h : ∀ r ∈ rs, r ∈ rs') : Wrote R Q [] rs' :=
  ⟨w.own, w.tmp, by simp, fun x h1 h2 => w.else_ x h1 fun r hr => h2 r (h r hr)⟩

theorem wrote_trans {Q S : Ram} {rs : List (Nat × Nat)} (w : Wrote R Q [] rs) (w' : Wrote Q S [] rs) : Wrote R S [] rs :=
  ⟨w'.own.trans w.own, w'.tmp.trans w.tmp, by simp, fun x h1 h2 => (w'.else_ x h1 h2).trans (w.else_ x h1 h2)⟩

/-- A write inside of a range. -/
theorem wrote_put_in (a : Nat) (l : List Byte) {b n : Nat} (h1 : b ≤ a) (h2 : a + l.length ≤ b + n) {rs : List (Nat × Nat)}
    (h : (b, n) ∈ rs) {R Q : Ram} (w : Wrote R Q [] rs) : Wrote R (Q.put a l) [] rs := by
  refine ⟨w.own, w.tmp, by simp, fun x h3 h4 => ?_⟩
  rw [put_mem_out (by have := h4 _ h; unfold Outside at this; dsimp only at this; omega)]
  exact w.else_ x h3 h4

theorem key_eq (h : Computes H f dat B hl N scr Is) (hhl : hl ≤ 64) {key k klen : Nat} (ho : R.Owned dat B)
    (hs : AllOwned R scr) (hap : AllApart ((dat, B) :: scr)) (hk : R.Owned key 64) (hdk : Apart dat B key 64)
    (hu : R.Owned k klen) (hka : klen ≤ 64 → Apart key klen k klen)
    (hkl : 64 < klen → Apart dat B k klen ∧ klen ≤ N) :
    ∃ Q, hmacKey H key R hl k klen =
        some (Q, (if klen ≤ 64 then R.bytes k klen else f (R.bytes k klen)).length) ∧
      Wrote R Q [] ((dat, B) :: (key, 64) :: scr) ∧
      Q.bytes key (if klen ≤ 64 then R.bytes k klen else f (R.bytes k klen)).length =
        (if klen ≤ 64 then R.bytes k klen else f (R.bytes k klen)) ∧
      (if klen ≤ 64 then R.bytes k klen else f (R.bytes k klen)).length ≤ 64 := by
  unfold hmacKey
  split
  · next h64 =>
    rw [memcpy_eq hu (by ownof hk) (hka h64), Option.map_some, bytes_length]
    exact ⟨_, rfl, wrote_put_in (b := key) (n := 64) _ _ le_rfl (by rw [bytes_length]; omega) (by simp) (wrote_refl _ _),
      bytes_put_same (bytes_length _ _), h64⟩
  · next h64 =>
    obtain ⟨ha, hn⟩ := hkl (by omega)
    obtain ⟨l, c, e1, i1⟩ := h.init ho
    obtain ⟨l', c', e2, i2⟩ := h.update i1 ho hu ha hn
    rw [List.nil_append] at i2
    obtain ⟨Q, c2, e3, w⟩ := h.digest (out := key) i2 ho hs (by ownof hk) hap
    obtain ⟨c3, e4⟩ := h.clear (R := Q.put key (f (R.bytes k klen))) (c := c2) (owned_same w.own ho)
    rw [e1, Option.bind_some, e2, Option.bind_some, e3, Option.bind_some, e4, Option.map_some, h.len]
    refine ⟨_, rfl, ?_, ?_, hhl⟩
    · refine wrote_put _ _ (B := B) (by simp) (by simp) (wrote_put_in (b := key) (n := 64) _ _ le_rfl (by rw [h.len]; omega) (by simp) ?_)
      exact wrote_mono w (by simp; tauto)
    · rw [bytes_put_apart (by rw [List.length_replicate]; apof hdk), bytes_put_same (h.len _)]

/-- The whole computation. -/
theorem hmac_computes (h : Computes H f dat B hl N scr Is) (hhl : hl ≤ 64) (hN : 64 ≤ N) {key pad k klen mac : Nat}
    (ho : AllOwned R (ranges dat B key pad scr)) (hap : AllApart (ranges dat B key pad scr))
    (hu : R.Owned k klen) (hka : klen ≤ 64 → Apart key klen k klen) (hkl : 64 < klen → Apart dat B k klen ∧ klen ≤ N)
    (calls : List (Nat × Nat))
    (hq : ∀ q ∈ calls, R.Owned q.1 q.2 ∧ q.2 ≤ N ∧ ∀ r ∈ ranges dat B key pad scr, Apart r.1 r.2 q.1 q.2)
    (hm : R.Owned mac hl) (hma : Apart dat B mac hl ∧ Apart key 64 mac hl ∧ Apart pad 64 mac hl) :
    ∃ R', hmac H key pad R hl k klen calls mac = some R' ∧
      Wrote R R' [(mac, hmacS f (R.bytes k klen) (calls.map fun q => R.bytes q.1 q.2).flatten), (dat, List.replicate B 0)]
        ((key, 64) :: (pad, 64) :: scr) := by
  unfold ranges at ho hap
  have hod : R.Owned dat B := ho (dat, B) (by simp)
  have hok : R.Owned key 64 := ho (key, 64) (by simp)
  have hop : R.Owned pad 64 := ho (pad, 64) (by simp)
  have hos : AllOwned R scr := fun p hp => ho p (by simp [hp])
  simp only [AllApart, List.pairwise_cons, List.mem_cons, forall_eq_or_imp] at hap
  obtain ⟨⟨hdk, hdp, hds⟩, ⟨hkp, hks⟩, hps, hss⟩ := hap
  have haps : AllApart ((dat, B) :: scr) := by
    rw [AllApart, List.pairwise_cons]; exact ⟨hds, hss⟩
  obtain ⟨Q, e1, w1, k1, kl⟩ := key_eq h hhl hod hos haps hok hdk hu hka hkl
  unfold hmacS
  dsimp only
  rw [bytes_length]
  generalize (if klen ≤ 64 then R.bytes k klen else f (R.bytes k klen)) = K at *
  -- the inner hash
  obtain ⟨l, c, e2, i2⟩ := start_eq (R := Q) h hN (owned_same w1.own hod) (owned_same w1.own hok) (owned_same w1.own hop) hkp hdp
    0x36 k1 kl
  have hP := fun v => (Verif.Modes.hmacPad_spec v kl)
  have hPl : ∀ v, (hmacPad v K).length = 64 := fun v => by rw [hP, Verif.Modes.xorB_length]; simp; omega
  have w2 : Wrote R (Q.put pad (hmacPad 0x36 K)) [] (ranges dat B key pad scr) :=
    wrote_put _ _ (hPl _) (by simp [ranges]) (wrote_mono w1 (by simp [ranges]; tauto))
  obtain ⟨l3, c3, e3, i3⟩ := updates_computes (R := Q.put pad (hmacPad 0x36 K)) h (owned_same w2.own hod) calls l c _ i2
    (fun q hq' => ⟨owned_same w2.own (hq q hq').1, (hq q hq').2.2 (dat, B) (by simp [ranges]), (hq q hq').2.1⟩)
  have hcalls : (calls.map fun q => (Q.put pad (hmacPad 0x36 K)).bytes q.1 q.2) = calls.map fun q => R.bytes q.1 q.2 :=
    List.map_congr_left fun q hq' => wrote_bytes w2 fun r hr => (hq q hq').2.2 r hr
  rw [hcalls] at i3
  generalize (calls.map fun q => R.bytes q.1 q.2).flatten = m at *
  obtain ⟨S, c4, e4, w4⟩ := h.digest (out := mac) i3 (owned_same w2.own hod) (owned_of w2.own hos) (owned_same w2.own hm) haps
  have k4 : (S.put mac (f (hmacPad 0x36 K ++ m))).own = R.own := w4.own.trans w2.own
  obtain ⟨c5, e5⟩ := h.clear (R := S.put mac (f (hmacPad 0x36 K ++ m))) (c := c4) (owned_same k4 hod)
  -- the key is still there
  have k5 : ((S.put mac (f (hmacPad 0x36 K ++ m))).put dat (List.replicate B 0)).bytes key K.length = K := by
    rw [bytes_put_apart (by rw [List.length_replicate]; apof hdk), bytes_put_apart (by rw [h.len]; apof hma.2.1),
      wrote_bytes w4, bytes_put_apart (by rw [hPl]; apof hkp), k1]
    intro r hr
    rcases List.mem_cons.1 hr with rfl | hr
    · apof hdk
    · have := hks r hr; apof this
  -- the outer hash
  obtain ⟨l6, c6, e6, i6⟩ := start_eq (R := (S.put mac (f (hmacPad 0x36 K ++ m))).put dat (List.replicate B 0)) h hN
    (owned_same k4 hod) (owned_same k4 hok) (owned_same k4 hop) hkp hdp 0x5c k5 kl
  obtain ⟨l7, c7, e7, i7⟩ := h.update (p := mac) (n := hl)
    (R := ((S.put mac (f (hmacPad 0x36 K ++ m))).put dat (List.replicate B 0)).put pad (hmacPad 0x5c K)) i6 (owned_same k4 hod)
    (owned_same k4 hm) hma.1 (by omega)
  rw [bytes_put_apart (R := (S.put mac (f (hmacPad 0x36 K ++ m))).put dat (List.replicate B 0)) (by rw [hPl]; exact hma.2.2),
    bytes_put_apart (R := S.put mac (f (hmacPad 0x36 K ++ m))) (by rw [List.length_replicate]; exact hma.1),
    bytes_put_same (h.len _)] at i7
  obtain ⟨T, c8, e8, w8⟩ := h.digest (out := mac)
    (R := ((S.put mac (f (hmacPad 0x36 K ++ m))).put dat (List.replicate B 0)).put pad (hmacPad 0x5c K)) i7 (owned_same k4 hod) (owned_of k4 hos) (owned_same k4 hm) haps
  have k8 : T.own = R.own := w8.own.trans k4
  obtain ⟨c9, e9⟩ := h.clear (R := T.put mac (f (hmacPad 0x5c K ++ f (hmacPad 0x36 K ++ m)))) (c := c8) (owned_same k8 hod)
  refine ⟨(T.put mac (f (hmacPad 0x5c K ++ f (hmacPad 0x36 K ++ m)))).put dat (List.replicate B 0), ?_, ?_⟩
  · unfold hmac hmacInit hmacDigest
    rw [e1, Option.bind_some]
    dsimp only
    rw [e2, Option.map_some, Option.bind_some]
    dsimp only
    rw [e3, Option.bind_some]
    dsimp only
    rw [e4, Option.bind_some, e5, Option.bind_some, e6, Option.bind_some, e7, Option.bind_some, e8, Option.bind_some, e9]
    rfl
  · rw [← hP, ← hP]
    refine ⟨k8, ?_, ?_, ?_⟩
    · exact w8.tmp.trans (w4.tmp.trans w2.tmp)
    · intro x hx
      simp only [List.mem_cons, List.not_mem_nil, or_false] at hx
      rcases hx with rfl | rfl
      · dsimp only
        rw [bytes_put_apart (by rw [List.length_replicate, h.len]; exact hma.1), bytes_put_same rfl]
      · exact bytes_put_same rfl
    · intro x hx hy
      have h1 := hx _ (List.mem_cons_self ..)
      have h2 := hx _ (List.mem_cons_of_mem _ (List.mem_cons_self ..))
      have h3 := hy (key, 64) (by simp)
      have h4 := hy (pad, 64) (by simp)
      dsimp only at h1 h2 h3 h4
      rw [h.len] at h1
      rw [List.length_replicate] at h2
      have hx' : ∀ r ∈ (dat, B) :: scr, Outside x r.1 r.2 := by
        intro r hr
        rcases List.mem_cons.1 hr with rfl | hr
        · exact h2
        · exact hy r (by simp [hr])
      rw [put_mem_out (by rw [List.length_replicate]; exact h2), put_mem_out (by rw [h.len]; exact h1), w8.else_ x (by simp) hx',
        put_mem_out (by rw [hPl]; exact h4), put_mem_out (by rw [List.length_replicate]; exact h2),
        put_mem_out (by rw [h.len]; exact h1), w4.else_ x (by simp) hx']
      refine w2.else_ x (by simp) fun r hr => ?_
      simp only [ranges, List.mem_cons] at hr
      rcases hr with rfl | rfl | rfl | hr
      · exact h2
      · exact h3
      · exact h4
      · exact hy r (by simp [hr])

end

end Verif.RamHash
