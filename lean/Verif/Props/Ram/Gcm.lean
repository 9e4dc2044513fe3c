import Verif.Lemmas.Ram.GcmPlace
import Verif.Props.Modes.Gcm
/-!
# C92: GCM on buffers in memory

Whole sessions of key, IV, associated data, message and tag with all buffers in one memory.  Output on top of the input, at
least one block before it, or behind it gives the result of the standard; every other placement gives a wrong one.
-/
namespace Verif.Ram
open Verif.Modes (gcmAE gctr gfMul)
open Verif.Gf (IsGcmMul)

variable {E : List Byte → List Byte}

/-- A shorter tag is a prefix of the full one. -/
theorem digest_take {G G' : Modes.Gcm} {t : List Byte} {k : Nat} (hk : k ≤ 16)
    (h : Modes.gcmDigest E G 16 = some (t, G')) {t' : List Byte} {G'' : Modes.Gcm} (h' : Modes.gcmDigest E G k = some (t', G'')) : t' = t.take k := by
  unfold Modes.gcmDigest at h h'
  rw [if_neg (by omega), Option.some.injEq, Prod.mk.injEq] at h h'
  rw [← h.1, ← h'.1, Modes.mxor_eq, Modes.mxor_eq, Modes.xorB, Modes.xorB, List.take_zipWith, List.take_take, Nat.min_eq_left hk, ← Modes.xorB, ← Modes.xorB,
    xorB_take_right (by rw [List.length_take]; omega)]

theorem gcmJ0_length (hE : ∀ b, b.length = 16 → (E b).length = 16) (iv : List Byte) : (Modes.gcmJ0 gfMul (E (List.replicate 16 0)) iv).length = 16 := by
  unfold Modes.gcmJ0
  split_ifs with h
  · rw [List.length_append, h]; rfl
  · refine Modes.ghashFrom_length _ _ (h := List.replicate 16 0) rfl (Modes.cut16_dvd ?_ []).2
    simp only [List.length_append, List.length_replicate, Modes.encodeBE_length]
    have := Modes.pad16_dvd iv
    omega

theorem gcmAE_tag_length {mul : List Byte → List Byte → List Byte} (hmul : IsGcmMul mul) (hE : ∀ b, b.length = 16 → (E b).length = 16) (iv aad msg : List Byte) :
    (gcmAE mul E iv aad msg).2.length = 16 := by
  rw [Modes.gcmAE_any hmul hE]
  unfold gcmAE
  dsimp only
  rw [Modes.xorB_length, hE _ (gcmJ0_length hE iv)]
  refine Nat.min_eq_right ?_
  refine (Modes.ghashFrom_length _ _ (h := List.replicate 16 0) rfl (Modes.cut16_dvd ?_ []).2).ge
  simp only [List.length_append, Modes.encodeBE_length]
  have h1 := Modes.pad16_dvd aad
  have h2 := Modes.pad16_dvd (gctr E (Modes.gcmInc (Modes.gcmJ0 gfMul (E (List.replicate 16 0)) iv)) msg)
  omega

/-- Key, IV and associated data. -/
theorem gcm_start_ram (hE : ∀ b, b.length = 16 → (E b).length = 16) (R : Ram) {g buf iv nv aad na : Nat} (og : R.Owned g 64) (ob : R.Owned buf 16)
    (gb : Apart g 64 buf 16) (oi : R.Owned iv nv) (gi : Apart g 64 iv nv) (bi : Apart buf 16 iv nv) (oa : R.Owned aad na) (ga : Apart g 64 aad na) (ba : Apart buf 16 aad na) :
    ∃ G1 G2 G3, gcmKeySet E g R = some G1 ∧ gcmIvSet g buf G1.R iv nv = some G2 ∧ gcmUpdate g G2 aad na = some G3 ∧ G3.R.own = R.own ∧ G3.R.tmp = R.tmp ∧
      G3.read g = Modes.gcmUpdate (Modes.gcmIvSet (Modes.gcmKeySet E) (R.bytes iv nv)) (R.bytes aad na) ∧
      ∀ x, Outside x g 64 → Outside x buf 16 → G3.R.mem x = R.mem x := by
  obtain ⟨G1, e1, o1, t1, r1, f1⟩ := gcmKeySet_ram hE (R := R) og
  obtain ⟨G2, e2, o2, t2, r2, f2⟩ := gcmIvSet_ram (R := G1.R) (iv := iv) (n := nv) (buf := buf) (owned_of_own o1 og) (owned_of_own o1 ob) (owned_of_own o1 oi) gb gi
  obtain ⟨G3, e3, o3, t3, r3, f3⟩ := gcmUpdate_ram (G := G2) (g := g) (aad := aad) (n := na) (owned_of_own (o2.trans o1) og) (owned_of_own (o2.trans o1) oa) ga
  have hG : GcmSt.read ⟨G1.R, 0, 0⟩ g = G1.read g := by
    have ha : G1.authLen = 0 := congrArg Modes.Gcm.authLen r1
    have hc : G1.ciphLen = 0 := congrArg Modes.Gcm.ciphLen r1
    unfold GcmSt.read
    rw [ha, hc]
  have hv : G1.R.bytes iv nv = R.bytes iv nv := bytes_frame fun i hi => f1 _ (by unfold Outside; unfold Apart at gi; omega)
  have haa : G2.R.bytes aad na = R.bytes aad na := bytes_frame fun i hi => by
    rw [f2 _ (by unfold Outside; unfold Apart at ga; omega) (by unfold Outside; unfold Apart at ba; omega), f1 _ (by unfold Outside; unfold Apart at ga; omega)]
  refine ⟨G1, G2, G3, e1, e2, e3, o3.trans (o2.trans o1), t3.trans (t2.trans t1), ?_, fun x h1 h2 => by rw [f3 x h1, f2 x h1 h2, f1 x h1]⟩
  rw [r3, r2, hG, r1, hv, haa]

/-- The tag after the message. -/
theorem gcm_end_ram (hE : ∀ b, b.length = 16 → (E b).length = 16) {R : Ram} {G : GcmSt} {g buf buf' d mac k : Nat} {out tag : List Byte} {G' : Modes.Gcm}
    (og : AllOwned R [(g, 64), (buf, 16), (buf', 16)]) (ag : AllApart [(g, 64), (buf, 16), (buf', 16)])
    (hd : Usable R [(g, 64), (buf, 16), (buf', 16)] d out.length) (hm : Usable R [(g, 64), (buf, 16), (buf', 16), (d, out.length)] mac k) (hk : k ≤ 16)
    (o : G.R.own = R.own) (t : G.R.tmp = R.tmp) (b : G.R.bytes d out.length = out)
    (f : ∀ x, Outside x g 64 → Outside x buf 16 → Outside x d out.length → G.R.mem x = R.mem x)
    (ht : Modes.gcmDigest E (G.read g) 16 = some (tag, G')) (tl : tag.length = 16) :
    ∃ G5, gcmDigest E g buf buf' G mac k = some G5 ∧ Wrote R G5.R [(d, out), (mac, tag.take k)] [(g, 64), (buf, 16), (buf', 16)] := by
  simp only [AllOwned, AllApart, Usable, List.forall_mem_cons, List.pairwise_cons, List.not_mem_nil, false_implies, implies_true, and_true, List.Pairwise.nil] at og ag hd hm
  obtain ⟨og, ob, ob'⟩ := og
  obtain ⟨⟨gb, gb'⟩, bb'⟩ := ag
  obtain ⟨om, gm, bm, bm', dm⟩ := hm
  obtain ⟨od, gd, bd, bd'⟩ := hd
  obtain ⟨G5, e5, o5, t5, r5, f5⟩ := gcmDigest_ram hE (G := G) hk (owned_of_own o og) (owned_of_own o ob) (owned_of_own o ob') (owned_of_own o om) gb gb' gm bm'
  have hT := digest_take hk ht r5
  have hl : (tag.take k).length = k := by rw [List.length_take, tl]; omega
  refine ⟨G5, e5, o5.trans o, t5.trans t, ?_, fun x hw hr => ?_⟩
  · intro w hw
    simp only [List.mem_cons, List.not_mem_nil, or_false] at hw
    rcases hw with rfl | rfl
    · refine (bytes_frame fun i hi => f5 _ ?_ ?_ ?_ ?_).trans b <;> unfold Outside <;> unfold Apart at * <;> dsimp only at * <;> omega
    · dsimp only
      rw [hl, hT]
  · simp only [List.forall_mem_cons, List.not_mem_nil, false_implies, implies_true, and_true, hl] at hw hr
    rw [f5 x hr.1 hr.2.1 hr.2.2 hw.2, f x hr.1 hr.2.1 hw.1]

/-- C92: key, IV, associated data, message and tag of `k` bytes, all in one memory: every call is defined, the output holds the ciphertext of the
standard and `mac` the first `k` bytes of its tag, whatever admissible place the output has; nothing outside the context, the local arrays, the
output and `mac` changes. -/
theorem gcm_seal_ram {mul : List Byte → List Byte → List Byte} (hmul : IsGcmMul mul) (hE : ∀ b, b.length = 16 → (E b).length = 16) (R : Ram)
    {g buf buf' iv nv aad na d s n mac k : Nat} (og : AllOwned R [(g, 64), (buf, 16), (buf', 16)]) (ag : AllApart [(g, 64), (buf, 16), (buf', 16)])
    (hiv : Usable R [(g, 64), (buf, 16), (buf', 16)] iv nv) (ha : Usable R [(g, 64), (buf, 16), (buf', 16)] aad na)
    (hs : Usable R [(g, 64), (buf, 16), (buf', 16)] s n) (hd : Usable R [(g, 64), (buf, 16), (buf', 16)] d n)
    (hm : Usable R [(g, 64), (buf, 16), (buf', 16), (d, n)] mac k) (hk : k ≤ 16) (pl : GcmPlace d s n) (l1 : 8 * nv < 2 ^ 32) (l2 : 8 * na < 2 ^ 32)
    (l3 : 8 * n < 2 ^ 32) :
    ∃ G1 G2 G3 G4 G5, gcmKeySet E g R = some G1 ∧ gcmIvSet g buf G1.R iv nv = some G2 ∧ gcmUpdate g G2 aad na = some G3 ∧
      gcmEncrypt E g buf G3 d s n = some G4 ∧ gcmDigest E g buf buf' G4 mac k = some G5 ∧
      Wrote R G5.R [(d, (gcmAE mul E (R.bytes iv nv) (R.bytes aad na) (R.bytes s n)).1),
        (mac, (gcmAE mul E (R.bytes iv nv) (R.bytes aad na) (R.bytes s n)).2.take k)] [(g, 64), (buf, 16), (buf', 16)] := by
  have og0 := og
  have ag0 := ag
  have hd0 := hd
  have hm0 := hm
  simp only [AllOwned, AllApart, Usable, List.forall_mem_cons, List.pairwise_cons, List.not_mem_nil, false_implies, implies_true, and_true, List.Pairwise.nil] at og ag hd hm hiv ha hs
  obtain ⟨og, ob, ob'⟩ := og
  obtain ⟨⟨gb, gb'⟩, bb'⟩ := ag
  obtain ⟨om, gm, bm, bm', dm⟩ := hm
  obtain ⟨od, gd, bd, bd'⟩ := hd
  obtain ⟨os, gs, bs, bs'⟩ := hs
  obtain ⟨oi, gi, bi, bi'⟩ := hiv
  obtain ⟨oa, ga, ba, ba'⟩ := ha
  obtain ⟨G1, G2, G3, e1, e2, e3, o3, t3, r3, f3⟩ := gcm_start_ram hE R og ob gb oi gi bi oa ga ba
  obtain ⟨G4, e4, o4, t4, r4, f4⟩ := gcmEncrypt_ram hE (G := G3) (g := g) (buf := buf) (d := d) (s := s) (n := n) (owned_of_own o3 og) (owned_of_own o3 ob)
    (owned_of_own o3 os) (owned_of_own o3 od) gb gs gd bs bd pl
  have hsrc : G3.R.bytes s n = R.bytes s n := bytes_frame fun i hi => f3 _ (by unfold Outside; unfold Apart at gs; omega) (by unfold Outside; unfold Apart at bs; omega)
  obtain ⟨⟨Gd, ht⟩, hy⟩ := Modes.gcm_standard_any hmul hE (s == d) (R.bytes iv nv) (R.bytes aad na) (R.bytes s n) (by rw [bytes_length]; exact l1)
    (by rw [bytes_length]; exact l2) (by rw [bytes_length]; exact l3)
  rw [← r3, ← hsrc, ← r4] at ht hy
  dsimp only at ht hy
  rw [hsrc] at ht hy
  have hl : (gcmAE mul E (R.bytes iv nv) (R.bytes aad na) (R.bytes s n)).1.length = n := by rw [← hy, bytes_length]
  have tl := gcmAE_tag_length hmul hE (R.bytes iv nv) (R.bytes aad na) (R.bytes s n)
  obtain ⟨G5, e5, w⟩ := gcm_end_ram hE (R := R) (G := G4) (d := d) (mac := mac) (out := (gcmAE mul E (R.bytes iv nv) (R.bytes aad na) (R.bytes s n)).1) og0 ag0
    (by rw [hl]; exact hd0) (by rw [hl]; exact hm0) hk (o4.trans o3) (t4.trans t3) (by rw [hl]; exact hy) (by rw [hl]; exact fun x h1 h2 h3 => by rw [f4 x h1 h2 h3, f3 x h1 h2]) ht tl
  exact ⟨G1, G2, G3, G4, G5, e1, e2, e3, e4, e5, w⟩

/-- C92: the same calls with `cry_gcm_decrypt` on a ciphertext of the standard give the message and the tag back, again in place or not. -/
theorem gcm_open_ram {mul : List Byte → List Byte → List Byte} (hmul : IsGcmMul mul) (hE : ∀ b, b.length = 16 → (E b).length = 16) (R : Ram)
    {g buf buf' iv nv aad na d s n mac k : Nat} (og : AllOwned R [(g, 64), (buf, 16), (buf', 16)]) (ag : AllApart [(g, 64), (buf, 16), (buf', 16)])
    (hiv : Usable R [(g, 64), (buf, 16), (buf', 16)] iv nv) (ha : Usable R [(g, 64), (buf, 16), (buf', 16)] aad na)
    (hs : Usable R [(g, 64), (buf, 16), (buf', 16)] s n) (hd : Usable R [(g, 64), (buf, 16), (buf', 16)] d n)
    (hm : Usable R [(g, 64), (buf, 16), (buf', 16), (d, n)] mac k) (hk : k ≤ 16) (pl : GcmPlace d s n) (l1 : 8 * nv < 2 ^ 32) (l2 : 8 * na < 2 ^ 32)
    (l3 : 8 * n < 2 ^ 32) {msg : List Byte} (e : R.bytes s n = (gcmAE mul E (R.bytes iv nv) (R.bytes aad na) msg).1) :
    ∃ G1 G2 G3 G4 G5, gcmKeySet E g R = some G1 ∧ gcmIvSet g buf G1.R iv nv = some G2 ∧ gcmUpdate g G2 aad na = some G3 ∧
      gcmDecrypt E g buf G3 d s n = some G4 ∧ gcmDigest E g buf buf' G4 mac k = some G5 ∧
      Wrote R G5.R [(d, msg), (mac, (gcmAE mul E (R.bytes iv nv) (R.bytes aad na) msg).2.take k)] [(g, 64), (buf, 16), (buf', 16)] := by
  have og0 := og
  have ag0 := ag
  have hd0 := hd
  have hm0 := hm
  simp only [AllOwned, AllApart, Usable, List.forall_mem_cons, List.pairwise_cons, List.not_mem_nil, false_implies, implies_true, and_true, List.Pairwise.nil] at og ag hd hm hiv ha hs
  obtain ⟨og, ob, ob'⟩ := og
  obtain ⟨⟨gb, gb'⟩, bb'⟩ := ag
  obtain ⟨om, gm, bm, bm', dm⟩ := hm
  obtain ⟨od, gd, bd, bd'⟩ := hd
  obtain ⟨os, gs, bs, bs'⟩ := hs
  obtain ⟨oi, gi, bi, bi'⟩ := hiv
  obtain ⟨oa, ga, ba, ba'⟩ := ha
  obtain ⟨G1, G2, G3, e1, e2, e3, o3, t3, r3, f3⟩ := gcm_start_ram hE R og ob gb oi gi bi oa ga ba
  obtain ⟨G4, e4, o4, t4, r4, f4⟩ := gcmDecrypt_ram hE (G := G3) (g := g) (buf := buf) (d := d) (s := s) (n := n) (owned_of_own o3 og) (owned_of_own o3 ob)
    (owned_of_own o3 os) (owned_of_own o3 od) gb gs gd bs bd pl
  have hsrc : G3.R.bytes s n = R.bytes s n := bytes_frame fun i hi => f3 _ (by unfold Outside; unfold Apart at gs; omega) (by unfold Outside; unfold Apart at bs; omega)
  have hrt := Modes.gcm_roundtrip hE (G3.read g) (bytes_length _ _) (s == d) (s == d) msg
  have hctr := bytes_length (R := G3.R) (g + 16) 16
  have hln : msg.length = n := by
    have := congrArg List.length e
    rw [bytes_length, Modes.gcmAE_any hmul hE] at this
    rw [this]
    exact (Modes.gctr_length hE (Modes.gcmInc_length (gcmJ0_length hE (R.bytes iv nv))) msg).symm
  obtain ⟨⟨Gd, ht⟩, hy⟩ := Modes.gcm_standard_any hmul hE (s == d) (R.bytes iv nv) (R.bytes aad na) msg (by rw [bytes_length]; exact l1)
    (by rw [bytes_length]; exact l2) (by rw [hln]; exact l3)
  rw [← r3] at ht hy
  rw [hsrc, e, ← hy, hrt.2] at r4
  rw [Prod.mk.injEq] at r4
  rw [← r4.2] at ht
  have tl := gcmAE_tag_length hmul hE (R.bytes iv nv) (R.bytes aad na) msg
  obtain ⟨G5, e5, w⟩ := gcm_end_ram hE (R := R) (G := G4) (d := d) (mac := mac) (out := msg) og0 ag0
    (by rw [hln]; exact hd0) (by rw [hln]; exact hm0) hk (o4.trans o3) (t4.trans t3) (by rw [hln]; exact r4.1) (by rw [hln]; exact fun x h1 h2 h3 => by rw [f4 x h1 h2 h3, f3 x h1 h2]) ht tl
  exact ⟨G1, G2, G3, G4, G5, e1, e2, e3, e4, e5, w⟩

/-- C92: wherever output and input are, `cry_gcm_encrypt` and `cry_gcm_decrypt` are defined and change nothing but the output, the context and the local array. -/
theorem gcm_safe_ram (hE : ∀ b, b.length = 16 → (E b).length = 16) (G : GcmSt) {g buf d s n : Nat} (og : G.R.Owned g 64) (ob : G.R.Owned buf 16)
    (os : G.R.Owned s n) (od : G.R.Owned d n) (gb : Apart g 64 buf 16) (gs : Apart g 64 s n) (gd : Apart g 64 d n) (bd : Apart buf 16 d n) :
    (∃ G', gcmEncrypt E g buf G d s n = some G' ∧ Wrote G.R G'.R [] [(g, 64), (buf, 16), (d, n)]) ∧
    ∃ G', gcmDecrypt E g buf G d s n = some G' ∧ Wrote G.R G'.R [] [(g, 64), (buf, 16), (d, n)] := by
  constructor
  · obtain ⟨R1, e1, o1, t1, f1⟩ := gcmOperateLoop_safe hE (ctr := g + 16) (buf := buf) (by apof gb) (s == d) (n + 1) G.R d s n (by omega) (by ownof og) ob os od bd
    have og1 := owned_of_own o1 og
    have hh := Modes.gcmHash_length (R1.bytes (g + 48) 16) (R1.bytes d n) (bytes_length (R := R1) (g + 32) 16)
    rw [gcmEncrypt, gcmOperate, e1, Option.bind_some, gcmHash_ram (by apt) (by ownof og1) (by ownof og1) (owned_of_own o1 od) (by apof gd)]
    refine ⟨_, rfl, o1, t1, by simp, fun x _ h => ?_⟩
    simp only [List.forall_mem_cons, List.not_mem_nil, false_implies, implies_true, and_true] at h
    obtain ⟨h1, h2, h3⟩ := h
    dsimp only
    rw [put_mem_out (by rw [hh]; unfold Outside at h1; omega), f1 x h3 (by unfold Outside at *; omega) h2]
  · have hh := Modes.gcmHash_length (G.R.bytes (g + 48) 16) (G.R.bytes s n) (bytes_length (R := G.R) (g + 32) 16)
    rw [gcmDecrypt, gcmHash_ram (by apt) (by ownof og) (by ownof og) os (by apof gs), Option.bind_some]
    obtain ⟨R1, e1, o1, t1, f1⟩ := gcmOperateLoop_safe hE (ctr := g + 16) (buf := buf) (by apof gb) (s == d) (n + 1)
      (G.R.put (g + 32) (Modes.gcmHash (G.R.bytes (g + 32) 16) (G.R.bytes (g + 48) 16) (G.R.bytes s n))) d s n (by omega) (by ownof og) ob os od bd
    rw [gcmOperate, e1]
    refine ⟨_, rfl, o1, t1, by simp, fun x _ h => ?_⟩
    simp only [List.forall_mem_cons, List.not_mem_nil, false_implies, implies_true, and_true] at h
    obtain ⟨h1, h2, h3⟩ := h
    dsimp only
    rw [f1 x h3 (by unfold Outside at *; omega) h2, put_mem_out (by rw [hh]; unfold Outside at h1; omega)]

/-- C92: every other placement gives a wrong result: for each there is a memory (all of it accessible) and a cipher for which the output is not that of the
standard. -/
theorem gcm_place_needed {g buf d s n : Nat} (gb : Apart g 64 buf 16) (gs : Apart g 64 s n) (gd : Apart g 64 d n) (bs : Apart buf 16 s n) (bd : Apart buf 16 d n)
    (h : ¬ GcmPlace d s n) :
    ∃ (E : List Byte → List Byte) (G G' : GcmSt), (∀ b, b.length = 16 → (E b).length = 16) ∧ (∀ a, G.R.own a = true) ∧ gcmEncrypt E g buf G d s n = some G' ∧
      G'.R.bytes d n ≠ gctr E (G.R.bytes (g + 16) 16) (G.R.bytes s n) := by
  unfold GcmPlace at h
  have hne : d ≠ s := fun e => h (Or.inl e)
  have hn : 16 ≤ n := by omega
  have hf : (s == d) = false := by simp [Ne.symm hne]
  -- the input byte that is lost, and what is in memory
  obtain ⟨R, j, hj, hR, R1, e1, o1, t1, f1, hw⟩ : ∃ (R : Ram) (j : Nat), j < n ∧ (∀ a, R.own a = true) ∧ ∃ R1, gcmOperateLoop zeroE (g + 16) buf false (n + 1) R d s n = some R1 ∧
      R1.own = R.own ∧ R1.tmp = R.tmp ∧ (∀ x, Outside x d n → Outside x (g + 16) 16 → Outside x buf 16 → R1.mem x = R.mem x) ∧ R1.mem (d + j) ≠ R.mem (s + j) := by
    by_cases h1 : d < s + 16
    · have all : ∀ a m, Ram.Owned ⟨fun _ => true, fun _ => 1, []⟩ a m := fun _ _ _ _ => rfl
      obtain ⟨R1, e1, o1, t1, f1, b1⟩ := first_block (ctr := g + 16) (buf := buf) (by apof gb) ⟨fun _ => true, fun _ => 1, []⟩ (d := d) (s := s) hn (all _ _) (all _ _) (all _ _)
        (all _ _) bd (by apof gd)
      refine ⟨_, d - s, by omega, fun _ => rfl, R1, e1, o1, t1, f1, ?_⟩
      rw [b1 _ (by omega), if_pos (by omega)]
      exact (by decide : (0 : Byte) ≠ 1)
    · have all : ∀ a m, Ram.Owned ⟨fun _ => true, fun x => if x = s then 1 else 0, []⟩ a m := fun _ _ _ _ => rfl
      obtain ⟨R1, e1, o1, t1, f1, b1⟩ := copy_up (ctr := g + 16) (buf := buf) (by apof gb) (n + 1) ⟨fun _ => true, fun x => if x = s then 1 else 0, []⟩ d s n (by omega) (by omega)
        (all _ _) (all _ _) (all _ _) (all _ _) bd bs (by apof gs) (by apof gd)
      refine ⟨_, d - s, by omega, fun _ => rfl, R1, e1, o1, t1, f1, ?_⟩
      have b0 := b1 0 (by omega)
      rw [Nat.add_zero, Nat.add_zero] at b0
      rw [b1 _ (by omega), show s + (d - s) = d by omega, b0, f1 s (by unfold Outside; omega) (by unfold Outside; unfold Apart at gs; omega)
        (by unfold Outside; unfold Apart at bs; omega)]
      dsimp only
      rw [if_pos rfl, if_neg hne]
      decide
  have all : ∀ a m, R1.Owned a m := fun a m i _ => by rw [o1]; exact hR _
  have hh := Modes.gcmHash_length (R1.bytes (g + 48) 16) (R1.bytes d n) (bytes_length (R := R1) (g + 32) 16)
  refine ⟨zeroE, ⟨R, 0, 0⟩, ⟨R1.put (g + 32) (Modes.gcmHash (R1.bytes (g + 32) 16) (R1.bytes (g + 48) 16) (R1.bytes d n)), 0, 0 + BitVec.ofNat 64 n⟩,
    zeroE_len, hR, ?_, ?_⟩
  · rw [gcmEncrypt, gcmOperate, hf, e1, Option.bind_some, gcmHash_ram (by apt) (all _ _) (all _ _) (all _ _) (by apof gd)]; rfl
  · dsimp only
    rw [gctr_zero, bytes_put_apart (by rw [hh]; apof gd)]
    intro e
    have := congrArg (·[j]?) e
    simp only [bytes_get, if_pos hj, Option.some.injEq] at this
    exact hw this

/-- C92: a tag of more than 16 bytes is read from behind the arrays, whatever the memory. -/
theorem gcm_long_tag_ram (G : GcmSt) {g buf buf' mac k : Nat} (hk : 16 < k) : gcmDigest E g buf buf' G mac k = none := by
  unfold gcmDigest
  cases gcmHashSizes (g + 32) (g + 48) buf G.R G.authLen G.ciphLen with
  | none => rfl
  | some R =>
    rw [Option.bind_some]
    cases cipher E 16 1 R buf' g with
    | none => rfl
    | some R => rw [Option.bind_some, if_pos hk]

-- a message of 40 bytes in place, behind the context and the local arrays; IV of 12 and tag of 16 bytes
example : AllApart [(0, 64), (64, 16), (80, 16)] ∧ GcmPlace 200 200 40 ∧ AllOwned ⟨fun a => decide (a < 300), fun _ => 7, []⟩ [(0, 64), (64, 16), (80, 16)] ∧
    Usable ⟨fun a => decide (a < 300), fun _ => 7, []⟩ [(0, 64), (64, 16), (80, 16)] 100 12 ∧
    Usable ⟨fun a => decide (a < 300), fun _ => 7, []⟩ [(0, 64), (64, 16), (80, 16)] 120 20 ∧
    Usable ⟨fun a => decide (a < 300), fun _ => 7, []⟩ [(0, 64), (64, 16), (80, 16)] 200 40 ∧
    Usable ⟨fun a => decide (a < 300), fun _ => 7, []⟩ [(0, 64), (64, 16), (80, 16), (200, 40)] 260 16 := by
  unfold AllApart GcmPlace AllOwned Usable
  decide
example : IsGcmMul gfMul := fun x y hx _ => Modes.gfMul_correct x y hx
-- output one byte before or one block behind the start of the input
example : ¬ GcmPlace 199 200 40 ∧ ¬ GcmPlace 216 200 40 ∧ ¬ GcmPlace 201 200 16 := by unfold GcmPlace; omega

end Verif.Ram
