import Verif.Lemmas.Ram.Gcm
import Verif.Spec.RamGcm
/-! The calls of GCM on memory do what the calls on byte strings do. -/
namespace Verif.Ram
variable {E : List Byte → List Byte}

/-- The context at `g` as a value. -/
def GcmSt.read (G : GcmSt) (g : Nat) : Modes.Gcm :=
  ⟨G.R.bytes g 16, G.R.bytes (g + 16) 16, G.R.bytes (g + 32) 16, G.R.bytes (g + 48) 16, G.authLen, G.ciphLen⟩

theorem opPlace_of {d s n : Nat} (h : GcmPlace d s n) : OpPlace (s == d) d s n := by
  unfold GcmPlace at h
  unfold OpPlace
  by_cases e : s = d
  · exact Or.inl ⟨by simp [e], e.symm⟩
  · refine Or.inr ⟨by simp [e], ?_⟩
    omega

theorem owned_of_own {R R' : Ram} (h : R'.own = R.own) {a n : Nat} (o : R.Owned a n) : R'.Owned a n := by
  unfold Ram.Owned; rw [h]; exact o

theorem bytes_frame {R R' : Ram} {a n : Nat} (h : ∀ i < n, R'.mem (a + i) = R.mem (a + i)) : R'.bytes a n = R.bytes a n := bytes_ext h

theorem gcmKeySet_ram (hE : ∀ b, b.length = 16 → (E b).length = 16) {R : Ram} {g : Nat} (og : R.Owned g 64) :
    ∃ G, gcmKeySet E g R = some G ∧ G.R.own = R.own ∧ G.R.tmp = R.tmp ∧ G.read g = Modes.gcmKeySet E ∧
      ∀ x, Outside x g 64 → G.R.mem x = R.mem x := by
  have hz : (List.replicate 16 (0 : Byte)).length = 16 := rfl
  have he := hE _ hz
  rw [gcmKeySet, fill_eq (by ownof og), Option.bind_some, fill_eq (by ownof og), Option.bind_some, fill_eq (by ownof og), Option.bind_some,
    fill_eq (by ownof og), Option.bind_some, fill_eq (by ownof og), Option.bind_some, cipher_one (by ownof og) (by ownof og), bytes_put_same hz]
  refine ⟨_, rfl, rfl, rfl, ?_, fun x hx => ?_⟩
  · unfold GcmSt.read Modes.gcmKeySet
    dsimp only
    congr 1
    · rw [bytes_put_apart (by rw [he]; apt), bytes_put_apart (by rw [hz]; apt), bytes_put_apart (by rw [hz]; apt), bytes_put_same hz]; rfl
    · rw [bytes_put_apart (by rw [he]; apt), bytes_put_apart (by rw [hz]; apt), bytes_put_apart (by rw [hz]; apt), bytes_put_apart (by rw [hz]; apt),
        bytes_put_same hz]; rfl
    · rw [bytes_put_apart (by rw [he]; apt), bytes_put_apart (by rw [hz]; apt), bytes_put_apart (by rw [hz]; apt), bytes_put_apart (by rw [hz]; apt),
        bytes_put_apart (by rw [hz]; apt), bytes_put_same hz]; rfl
    · rw [bytes_put_same he]; rfl
  · unfold Outside at hx
    rw [put_mem_out (by rw [he]; omega), put_mem_out (by rw [hz]; omega), put_mem_out (by rw [hz]; omega), put_mem_out (by rw [hz]; omega),
      put_mem_out (by rw [hz]; omega), put_mem_out (by rw [hz]; omega)]

theorem gcmIvSet_ram {R : Ram} {g buf iv n : Nat} (og : R.Owned g 64) (ob : R.Owned buf 16) (oi : R.Owned iv n) (gb : Apart g 64 buf 16)
    (gi : Apart g 64 iv n) : ∃ G, gcmIvSet g buf R iv n = some G ∧ G.R.own = R.own ∧ G.R.tmp = R.tmp ∧
      G.read g = Modes.gcmIvSet (GcmSt.read ⟨R, 0, 0⟩ g) (R.bytes iv n) ∧ ∀ x, Outside x g 64 → Outside x buf 16 → G.R.mem x = R.mem x := by
  have hz : (List.replicate 16 (0 : Byte)).length = 16 := rfl
  -- the IV
  obtain ⟨R1, e1, o1, t1, b1, f1⟩ : ∃ R1, (if n = 12 then
      (memcpy R g iv 12).bind fun R => (store R (g + 12) 0).bind fun R => (store R (g + 13) 0).bind fun R =>
      (store R (g + 14) 0).bind fun R => store R (g + 15) 1
    else
      (fill R g 0 16).bind fun R => (gcmHash g (g + 48) R iv n).bind fun R =>
      gcmHashSizes g (g + 48) buf R 0 (BitVec.ofNat 64 n)) = some R1 ∧ R1.own = R.own ∧ R1.tmp = R.tmp ∧
      R1.bytes g 16 = (Modes.gcmIvSet (GcmSt.read ⟨R, 0, 0⟩ g) (R.bytes iv n)).iv ∧
      ∀ x, Outside x g 16 → Outside x buf 16 → R1.mem x = R.mem x := by
    unfold Modes.gcmIvSet
    dsimp only
    rw [bytes_length]
    split_ifs with h12
    · subst h12
      have hb := bytes_length (R := R) iv 12
      rw [memcpy_eq oi (by ownof og) (by apof gi), Option.bind_some, store_eq (by ownof og), Option.bind_some, store_eq (by ownof og), Option.bind_some,
        store_eq (by ownof og), Option.bind_some, store_eq (by ownof og)]
      have e : ((((R.put g (R.bytes iv 12)).put (g + 12) [0]).put (g + 13) [0]).put (g + 14) [0]).put (g + 15) [1] = R.put g (R.bytes iv 12 ++ [0, 0, 0, 1]) := by
        rw [put_append, hb, show ([0, 0, 0, 1] : List Byte) = [0] ++ ([0] ++ ([0] ++ [1])) by rfl, put_append, put_append, put_append]; rfl
      rw [e]
      have hl : (R.bytes iv 12 ++ [0, 0, 0, 1]).length = 16 := by simp
      exact ⟨_, rfl, rfl, rfl, bytes_put_same hl, fun x h _ => put_mem_out (by rw [hl]; exact h)⟩
    · rw [fill_eq (by ownof og), Option.bind_some, gcmHash_ram (hs := g) (key := g + 48) (by apt) (by ownof og) (by ownof og) (by ownof oi) (by apof gi), Option.bind_some,
        bytes_put_same hz, bytes_put_apart (by rw [hz]; apt), bytes_put_apart (by rw [hz]; apof gi)]
      have hl := Modes.gcmHash_length (R.bytes (g + 48) 16) (R.bytes iv n) hz
      rw [put_put_same (by rw [hz, hl])]
      obtain ⟨R', e, o, t, b, f⟩ := gcmHashSizes_ram (R := R.put g (Modes.gcmHash (List.replicate 16 0) (R.bytes (g + 48) 16) (R.bytes iv n)))
        (hs := g) (key := g + 48) (buf := buf) (by apt) (by ownof og) (by ownof og) (by ownof ob) (by apof gb) (by apof gb) 0 (BitVec.ofNat 64 n)
      refine ⟨R', e, o, t, ?_, fun x h1 h2 => ?_⟩
      · rw [b, bytes_put_same hl, bytes_put_apart (by rw [hl]; apt)]; rfl
      · rw [f x h1 h2, put_mem_out (by rw [hl]; exact h1)]
  have h1 := bytes_length (R := R1) g 16
  have h2 := inc32_len h1
  have og1 := owned_of_own o1 og
  rw [gcmIvSet, e1, Option.bind_some, memcpy_eq (by ownof og1) (by ownof og1) (by apt), Option.bind_some, show g + 28 = g + 16 + 12 by omega,
    inc32_ram (by ownof og1), Option.bind_some, bytes_put_same h1, put_put_same (by rw [h1, h2]), fill_eq (by ownof og1)]
  refine ⟨_, rfl, o1, t1, ?_, fun x hx hb => ?_⟩
  · have hk : R1.bytes (g + 48) 16 = R.bytes (g + 48) 16 := bytes_frame fun i hi => f1 _ (by unfold Outside; omega) (by unfold Outside; unfold Apart at gb; omega)
    unfold GcmSt.read
    dsimp only
    rw [bytes_put_apart (by rw [hz]; apt), bytes_put_apart (by rw [h2]; apt), bytes_put_apart (by rw [hz]; apt), bytes_put_same h2, bytes_put_same hz,
      bytes_put_apart (by rw [hz]; apt), bytes_put_apart (by rw [h2]; apt), hk, b1]
    rfl
  · rw [put_mem_out (by rw [hz]; unfold Outside at hx; omega), put_mem_out (by rw [h2]; unfold Outside at hx; omega), f1 x (by unfold Outside at *; omega) hb]

theorem gcmUpdate_ram {G : GcmSt} {g aad n : Nat} (og : G.R.Owned g 64) (oa : G.R.Owned aad n) (ga : Apart g 64 aad n) :
    ∃ G', gcmUpdate g G aad n = some G' ∧ G'.R.own = G.R.own ∧ G'.R.tmp = G.R.tmp ∧
      G'.read g = Modes.gcmUpdate (G.read g) (G.R.bytes aad n) ∧ ∀ x, Outside x g 64 → G'.R.mem x = G.R.mem x := by
  have hl := Modes.gcmHash_length (G.R.bytes (g + 48) 16) (G.R.bytes aad n) (bytes_length (R := G.R) (g + 32) 16)
  rw [gcmUpdate, gcmHash_ram (by apt) (by ownof og) (by ownof og) oa (by apof ga)]
  refine ⟨_, rfl, rfl, rfl, ?_, fun x hx => put_mem_out (by rw [hl]; unfold Outside at hx; omega)⟩
  unfold GcmSt.read Modes.gcmUpdate
  dsimp only
  rw [bytes_put_apart (by rw [hl]; apt), bytes_put_apart (by rw [hl]; apt), bytes_put_same hl, bytes_put_apart (by rw [hl]; apt), bytes_length]

theorem gcmOperate_ram (hE : ∀ b, b.length = 16 → (E b).length = 16) {R : Ram} {ctr buf d s n : Nat} (cb : Apart ctr 16 buf 16) (oc : R.Owned ctr 16)
    (ob : R.Owned buf 16) (os : R.Owned s n) (od : R.Owned d n) (cs : Apart ctr 16 s n) (cd : Apart ctr 16 d n) (bs : Apart buf 16 s n)
    (bd : Apart buf 16 d n) (pl : GcmPlace d s n) : ∃ R', gcmOperate E ctr buf R d s n = some R' ∧ R'.own = R.own ∧ R'.tmp = R.tmp ∧
      R'.bytes d n = (Modes.gcmOperate E (s == d) (R.bytes ctr 16) (R.bytes s n)).1 ∧
      R'.bytes ctr 16 = (Modes.gcmOperate E (s == d) (R.bytes ctr 16) (R.bytes s n)).2 ∧
      ∀ x, Outside x d n → Outside x ctr 16 → Outside x buf 16 → R'.mem x = R.mem x := by
  have := gcmOperateLoop_ram hE cb (s == d) (n + 1) R d s n (by omega) oc ob os od cs cd bs bd (opPlace_of pl)
  unfold gcmOperate Modes.gcmOperate
  rwa [bytes_length]

theorem gcmEncrypt_ram (hE : ∀ b, b.length = 16 → (E b).length = 16) {G : GcmSt} {g buf d s n : Nat} (og : G.R.Owned g 64) (ob : G.R.Owned buf 16)
    (os : G.R.Owned s n) (od : G.R.Owned d n) (gb : Apart g 64 buf 16) (gs : Apart g 64 s n) (gd : Apart g 64 d n) (bs : Apart buf 16 s n)
    (bd : Apart buf 16 d n) (pl : GcmPlace d s n) : ∃ G', gcmEncrypt E g buf G d s n = some G' ∧ G'.R.own = G.R.own ∧ G'.R.tmp = G.R.tmp ∧
      (G'.R.bytes d n, G'.read g) = Modes.gcmEncrypt E (s == d) (G.read g) (G.R.bytes s n) ∧
      ∀ x, Outside x g 64 → Outside x buf 16 → Outside x d n → G'.R.mem x = G.R.mem x := by
  obtain ⟨R1, e1, o1, t1, b1, c1, f1⟩ := gcmOperate_ram hE (R := G.R) (ctr := g + 16) (by apof gb) (by ownof og) ob os od (by apof gs) (by apof gd) bs bd pl
  have og1 := owned_of_own o1 og
  have f1' : ∀ a, g ≤ a → a + 16 ≤ g + 64 → (a + 16 ≤ g + 16 ∨ g + 32 ≤ a) → R1.bytes a 16 = G.R.bytes a 16 := fun a h h1 h2 => bytes_frame fun i hi =>
    f1 _ (by unfold Outside; unfold Apart at gd; omega) (by unfold Outside; omega) (by unfold Outside; unfold Apart at gb; omega)
  have hh := Modes.gcmHash_length (R1.bytes (g + 48) 16) (R1.bytes d n) (bytes_length (R := R1) (g + 32) 16)
  rw [gcmEncrypt, e1, Option.bind_some, gcmHash_ram (by apt) (by ownof og1) (by ownof og1) (owned_of_own o1 od) (by apof gd)]
  refine ⟨_, rfl, o1, t1, ?_, fun x h1 h2 h3 => ?_⟩
  · unfold GcmSt.read Modes.gcmEncrypt
    dsimp only
    rw [bytes_put_apart (b := d) (by rw [hh]; apof gd), bytes_put_apart (b := g) (by rw [hh]; apt), bytes_put_apart (b := g + 16) (by rw [hh]; apt),
      bytes_put_same hh, bytes_put_apart (b := g + 48) (by rw [hh]; apt), b1, c1, f1' g (by omega) (by omega) (by omega), f1' (g + 32) (by omega) (by omega) (by omega),
      f1' (g + 48) (by omega) (by omega) (by omega), bytes_length]
  · dsimp only
    rw [put_mem_out (by rw [hh]; unfold Outside at h1; omega), f1 x h3 (by unfold Outside at *; omega) h2]

theorem gcmDecrypt_ram (hE : ∀ b, b.length = 16 → (E b).length = 16) {G : GcmSt} {g buf d s n : Nat} (og : G.R.Owned g 64) (ob : G.R.Owned buf 16)
    (os : G.R.Owned s n) (od : G.R.Owned d n) (gb : Apart g 64 buf 16) (gs : Apart g 64 s n) (gd : Apart g 64 d n) (bs : Apart buf 16 s n)
    (bd : Apart buf 16 d n) (pl : GcmPlace d s n) : ∃ G', gcmDecrypt E g buf G d s n = some G' ∧ G'.R.own = G.R.own ∧ G'.R.tmp = G.R.tmp ∧
      (G'.R.bytes d n, G'.read g) = Modes.gcmDecrypt E (s == d) (G.read g) (G.R.bytes s n) ∧
      ∀ x, Outside x g 64 → Outside x buf 16 → Outside x d n → G'.R.mem x = G.R.mem x := by
  have hh := Modes.gcmHash_length (G.R.bytes (g + 48) 16) (G.R.bytes s n) (bytes_length (R := G.R) (g + 32) 16)
  rw [gcmDecrypt, gcmHash_ram (by apt) (by ownof og) (by ownof og) os (by apof gs), Option.bind_some]
  generalize hR : G.R.put (g + 32) (Modes.gcmHash (G.R.bytes (g + 32) 16) (G.R.bytes (g + 48) 16) (G.R.bytes s n)) = R1
  have o1 : R1.own = G.R.own := by rw [← hR]; rfl
  have t1 : R1.tmp = G.R.tmp := by rw [← hR]; rfl
  have a1 : ∀ a m, Apart (g + 32) 16 a m → R1.bytes a m = G.R.bytes a m := fun a m h => by rw [← hR]; exact bytes_put_apart (by rw [hh]; exact h)
  obtain ⟨R2, e2, o2, t2, b2, c2, f2⟩ := gcmOperate_ram hE (R := R1) (ctr := g + 16) (buf := buf) (by apof gb) (by ownof (owned_of_own o1 og))
    (owned_of_own o1 ob) (owned_of_own o1 os) (owned_of_own o1 od) (by apof gs) (by apof gd) bs bd pl
  have f2' : ∀ a, g ≤ a → a + 16 ≤ g + 64 → (a + 16 ≤ g + 16 ∨ g + 32 ≤ a) → R2.bytes a 16 = R1.bytes a 16 := fun a h h1 h2 => bytes_frame fun i hi =>
    f2 _ (by unfold Outside; unfold Apart at gd; omega) (by unfold Outside; omega) (by unfold Outside; unfold Apart at gb; omega)
  rw [e2]
  refine ⟨_, rfl, o2.trans o1, t2.trans t1, ?_, fun x h1 h2 h3 => ?_⟩
  · unfold GcmSt.read Modes.gcmDecrypt
    dsimp only
    rw [b2, c2, f2' g (by omega) (by omega) (by omega), f2' (g + 32) (by omega) (by omega) (by omega), f2' (g + 48) (by omega) (by omega) (by omega),
      a1 g 16 (by apt), a1 (g + 16) 16 (by apt), a1 (g + 48) 16 (by apt), a1 s n (by apof gs), bytes_length]
    rw [show R1.bytes (g + 32) 16 = Modes.gcmHash (G.R.bytes (g + 32) 16) (G.R.bytes (g + 48) 16) (G.R.bytes s n) by rw [← hR]; exact bytes_put_same hh]
  · dsimp only
    rw [f2 x h3 (by unfold Outside at *; omega) h2, ← hR, put_mem_out (by rw [hh]; unfold Outside at h1; omega)]

theorem gcmDigest_ram (hE : ∀ b, b.length = 16 → (E b).length = 16) {G : GcmSt} {g buf buf' mac n : Nat} (hn : n ≤ 16) (og : G.R.Owned g 64)
    (ob : G.R.Owned buf 16) (ob' : G.R.Owned buf' 16) (om : G.R.Owned mac n) (gb : Apart g 64 buf 16) (gb' : Apart g 64 buf' 16) (gm : Apart g 64 mac n)
    (bm : Apart buf' 16 mac n) : ∃ G', gcmDigest E g buf buf' G mac n = some G' ∧ G'.R.own = G.R.own ∧ G'.R.tmp = G.R.tmp ∧
      Modes.gcmDigest E (G.read g) n = some (G'.R.bytes mac n, G'.read g) ∧
      ∀ x, Outside x g 64 → Outside x buf 16 → Outside x buf' 16 → Outside x mac n → G'.R.mem x = G.R.mem x := by
  obtain ⟨R1, e1, o1, t1, b1, f1⟩ := gcmHashSizes_ram (R := G.R) (hs := g + 32) (key := g + 48) (buf := buf) (by apt) (by ownof og) (by ownof og) ob
    (by apof gb) (by apof gb) G.authLen G.ciphLen
  have og1 := owned_of_own o1 og
  have f1' : ∀ a, g ≤ a → a + 16 ≤ g + 64 → (a + 16 ≤ g + 32 ∨ g + 48 ≤ a) → R1.bytes a 16 = G.R.bytes a 16 := fun a h h1 h2 => bytes_frame fun i hi =>
    f1 _ (by unfold Outside; omega) (by unfold Outside; unfold Apart at gb; omega)
  have hEl := hE _ (bytes_length (R := R1) g 16)
  have hx : (Modes.xorB ((R1.bytes (g + 32) 16).take n) ((E (R1.bytes g 16)).take n)).length = n := by
    rw [Modes.xorB_length, List.length_take, List.length_take, bytes_length, hEl]; omega
  rw [gcmDigest, e1, Option.bind_some, cipher_one (by ownof og1) (owned_of_own o1 ob'), Option.bind_some, if_neg (by omega),
    xor2_eq (by ownof og1) (by ownof (owned_of_own o1 ob')) (by ownof (owned_of_own o1 om)) (by apof bm), bytes_put_part le_rfl (by rw [hEl]; omega),
    Nat.sub_self, List.drop_zero, bytes_put_apart (by rw [hEl]; apof gb'), bytes_take (n := 16) rfl hn]
  refine ⟨_, rfl, o1, t1, ?_, fun x h1 h2 h3 h4 => ?_⟩
  · have k : ∀ a, g ≤ a → a + 16 ≤ g + 64 → ((R1.put buf' (E (R1.bytes g 16))).put mac
        (Modes.xorB ((R1.bytes (g + 32) 16).take n) ((E (R1.bytes g 16)).take n))).bytes a 16 = R1.bytes a 16 := fun a h h' => by
      rw [bytes_put_apart (by rw [hx]; apof gm), bytes_put_apart (by rw [hEl]; apof gb')]
    unfold GcmSt.read Modes.gcmDigest
    dsimp only
    rw [if_neg (by omega), bytes_put_same hx, k g (by omega) (by omega), k (g + 16) (by omega) (by omega), k (g + 32) (by omega) (by omega),
      k (g + 48) (by omega) (by omega), b1, f1' g (by omega) (by omega) (by omega), f1' (g + 16) (by omega) (by omega) (by omega),
      f1' (g + 48) (by omega) (by omega) (by omega), Modes.mxor_eq, xorB_take_right (by rw [List.length_take]; omega)]
  · dsimp only
    rw [put_mem_out (by rw [hx]; exact h4), put_mem_out (by rw [hEl]; exact h3), f1 x (by unfold Outside at *; omega) h2]

end Verif.Ram
