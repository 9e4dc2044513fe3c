import Verif.Lemmas.Ram.Hash
import Verif.Lemmas.Hash.Sha1
import Verif.Lemmas.Hash.Sha256
import Verif.Props.Hash.Sha512
import Verif.Lemmas.Hash.Md5
/-! Each of the hash functions computes the digest of the bytes in memory. -/
namespace Verif.RamHash
open Verif.Ram Verif.Hash
open Verif.HashS (Regs Regs4 Regs5)

variable {R : Ram}

theorem bytes_cons (p n : Nat) : R.bytes p (n + 1) = R.mem p :: R.bytes (p + 1) n := by
  rw [Nat.add_comm n 1, bytes_add]; rfl

/-! ### SHA-256 -/

theorem sha256Update_eq {dat : Nat} (ho : R.Owned dat 64) : ∀ (n p : Nat) (l : List Byte) (c : Fields256), l.length = 64 →
    c.datalen < 64 → R.Owned p n → Apart dat 64 p n →
    sha256Update dat (R.put dat l) c p n =
      some (R.put dat (Sha256.update ⟨l, c.datalen, c.bitlen, c.state⟩ (R.bytes p n)).data,
        ⟨(Sha256.update ⟨l, c.datalen, c.bitlen, c.state⟩ (R.bytes p n)).datalen,
         (Sha256.update ⟨l, c.datalen, c.bitlen, c.state⟩ (R.bytes p n)).bitlen,
         (Sha256.update ⟨l, c.datalen, c.bitlen, c.state⟩ (R.bytes p n)).state⟩)
  | 0, p, l, c, _, _, _, _ => by simp [sha256Update, Sha256.update]
  | n + 1, p, l, c, hl, hc, hp, ha => by
    have hx : (R.put dat l).mem p = R.mem p := put_mem_out (by rw [hl]; unfold Apart at ha; omega)
    rw [sha256Update, load_eq (by ownof hp), Option.bind_some, storeIn_eq hl hc ho, Option.bind_some, bytes_cons,
      Sha256.update, hx]
    have hl' : (l.set c.datalen (R.mem p)).length = 64 := by rw [List.length_set, hl]
    dsimp only
    split
    · rw [proc_self _ hl' ho, Option.bind_some,
        sha256Update_eq ho n (p + 1) _ _ hl' (by show 0 < 64; omega) (by ownof hp) (by apof ha)]
    · rw [sha256Update_eq ho n (p + 1) _ _ hl' (by show c.datalen + 1 < 64; omega) (by ownof hp) (by apof ha)]

theorem copyTo_replicate_succ {l : List Byte} {i n : Nat} (h : i + (n + 1) ≤ l.length) (v : Byte) :
    Blk.copyTo (l.set i v) (i + 1) (List.replicate n v) = Blk.copyTo l i (List.replicate (n + 1) v) := by
  unfold Blk.copyTo
  rw [Sha256.take_set_succ (by omega), List.drop_set_of_lt (by rw [List.length_replicate]; omega), List.replicate_succ,
    List.length_cons, List.length_replicate]
  simp [Nat.add_assoc, Nat.add_comm 1 n]

theorem zeros_eq {dat : Nat} (ho : R.Owned dat 64) : ∀ (n i : Nat) (l : List Byte), l.length = 64 → i + n ≤ 64 →
    zeros dat (R.put dat l) i n = some (R.put dat (Blk.copyTo l i (List.replicate n 0)))
  | 0, i, l, _, _ => by simp [zeros, Blk.copyTo]
  | n + 1, i, l, hl, h => by
    rw [zeros, storeIn_eq hl (by omega) ho, Option.bind_some,
      zeros_eq ho n (i + 1) _ (by rw [List.length_set, hl]) (by omega), copyTo_replicate_succ (by omega)]

theorem sha256Digest_eq {dat out : Nat} {l : List Byte} (c : Fields256) (ho : R.Owned dat 64) (hl : l.length = 64)
    (hc : c.datalen < 64) (hout : R.Owned out 32) :
    ∃ l' c', sha256Digest dat (R.put dat l) c out =
      some ((R.put dat l').put out (Sha256.digest ⟨l, c.datalen, c.bitlen, c.state⟩), c') ∧ l'.length = 64 := by
  have h8 : ∀ v, (write64be v).length = 8 := fun v => rfl
  have hd : ∀ l2 : List Byte, l2.length = 64 → ∀ v, Blk.copyTo l2 56 (write64be v) = l2.take 56 ++ write64be v := by
    intro l2 h2 v
    unfold Blk.copyTo
    rw [h8, List.drop_of_length_le (by omega), List.append_nil]
  have hfin : ∀ (l2 : List Byte) (st : Regs 32) (v : BitVec 64), l2.length = 64 →
      (stores (R.put dat l2) (dat + 56) (write64be v)) = some (R.put dat (l2.take 56 ++ write64be v)) ∧
        (l2.take 56 ++ write64be v).length = 64 := by
    intro l2 st v h2
    refine ⟨?_, by rw [List.length_append, List.length_take, h8]; omega⟩
    rw [stores_eq (by rw [h8]; ownof ho), put_put_in (by rw [h8]; omega), hd _ h2]
  have hset : (l.set c.datalen 0x80).length = 64 := by rw [List.length_set, hl]
  have htk : (l.take c.datalen).length = c.datalen := by rw [List.length_take]; omega
  unfold sha256Digest Sha256.digest
  dsimp only
  split
  · next h56 =>
    rw [storeIn_eq hl hc ho, Option.bind_some, zeros_eq ho _ _ _ hset (by omega), Option.map_some, Option.bind_some]
    have e : Blk.copyTo (l.set c.datalen 0x80) (c.datalen + 1) (List.replicate (56 - (c.datalen + 1)) 0) =
        l.take c.datalen ++ [0x80] ++ List.replicate (55 - c.datalen) 0 ++ l.drop 56 := by
      unfold Blk.copyTo
      rw [Sha256.take_set_succ (by omega), List.drop_set_of_lt (by rw [List.length_replicate]; omega),
        List.length_replicate, show 56 - (c.datalen + 1) = 55 - c.datalen by omega,
        show c.datalen + 1 + (55 - c.datalen) = 56 by omega]
    rw [e]
    have h64 : (l.take c.datalen ++ [0x80] ++ List.replicate (55 - c.datalen) 0 ++ l.drop 56).length = 64 := by
      simp only [List.length_append, htk, List.length_cons, List.length_nil, List.length_replicate, List.length_drop]
      omega
    obtain ⟨e1, e2⟩ := hfin _ c.state (c.bitlen + BitVec.ofNat 64 (c.datalen * 8)) h64
    dsimp only
    rw [e1, Option.bind_some, proc_self _ e2 ho, Option.bind_some, stores_eq (by exact hout), Option.map_some]
    exact ⟨_, _, rfl, e2⟩
  · next h56 =>
    rw [storeIn_eq hl hc ho, Option.bind_some, zeros_eq ho _ _ _ hset (by omega), Option.bind_some]
    have e : Blk.copyTo (l.set c.datalen 0x80) (c.datalen + 1) (List.replicate (64 - (c.datalen + 1)) 0) =
        l.take c.datalen ++ [0x80] ++ List.replicate (63 - c.datalen) 0 := by
      unfold Blk.copyTo
      rw [Sha256.take_set_succ (by omega), List.drop_of_length_le (by rw [List.length_replicate]; omega),
        show 64 - (c.datalen + 1) = 63 - c.datalen by omega, List.append_nil]
    rw [e]
    have h64 : (l.take c.datalen ++ [0x80] ++ List.replicate (63 - c.datalen) 0).length = 64 := by
      simp only [List.length_append, htk, List.length_cons, List.length_nil, List.length_replicate]
      omega
    have hz : (R.put dat (l.take c.datalen ++ [0x80] ++ List.replicate (63 - c.datalen) 0)).put dat (List.replicate 56 0) =
        R.put dat (List.replicate 56 0 ++ (l.take c.datalen ++ [0x80] ++ List.replicate (63 - c.datalen) 0).drop 56) := by
      rw [show (R.put dat (l.take c.datalen ++ [0x80] ++ List.replicate (63 - c.datalen) 0)).put dat (List.replicate 56 0) =
        (R.put dat (l.take c.datalen ++ [0x80] ++ List.replicate (63 - c.datalen) 0)).put (dat + 0) (List.replicate 56 0) from rfl,
        put_put_in (by rw [List.length_replicate]; omega)]
      simp only [Blk.copyTo, List.take_zero, List.nil_append, List.length_replicate, Nat.zero_add]
    rw [proc_self _ h64 ho, Option.bind_some, fill_eq _ (by ownof ho), Option.map_some, Option.bind_some, hz]
    have h64' : (List.replicate 56 0 ++
        (l.take c.datalen ++ [0x80] ++ List.replicate (63 - c.datalen) 0).drop 56 : List Byte).length = 64 := by
      rw [List.length_append, List.length_drop, h64, List.length_replicate]
    obtain ⟨e1, e2⟩ := hfin _ c.state (c.bitlen + BitVec.ofNat 64 (c.datalen * 8)) h64'
    dsimp only
    rw [e1, Option.bind_some, proc_self _ e2 ho, Option.bind_some, stores_eq (by exact hout), Option.map_some]
    exact ⟨_, _, rfl, e2⟩

/-- Only the given range was written. -/
theorem wrote_put (a : Nat) (l : List Byte) {B : Nat} (hl : l.length = B) {rs : List (Nat × Nat)} (h : (a, B) ∈ rs)
    {R Q : Ram} (w : Wrote R Q [] rs) : Wrote R (Q.put a l) [] rs := by
  refine ⟨w.own, w.tmp, by simp, fun x h1 h2 => ?_⟩
  rw [put_mem_out (by have := h2 _ h; unfold Outside at this; dsimp only at this; omega)]
  exact w.else_ x h1 h2

theorem wrote_refl (R : Ram) (rs : List (Nat × Nat)) : Wrote R R [] rs := ⟨rfl, rfl, by simp, fun _ _ _ => rfl⟩

theorem sha256_computes (dat N : Nat) : Computes (sha256Itf dat) HashS.sha256 dat 64 32 N []
    (fun l c m => Sha256.Rep ⟨l, c.datalen, c.bitlen, c.state⟩ m) where
  size h := h.len
  len m := by simp [HashS.sha256, HashS.Regs.bytes, Verif.Modes.encodeBE_length]
  init ho := ⟨_, _, by show sha256Init _ _ = _; rw [sha256Init, fill_eq _ ho]; rfl, Sha256.init_rep⟩
  update hi ho hp ha _ := ⟨_, _, sha256Update_eq ho _ _ _ _ hi.len hi.fill hp ha, Sha256.update_rep _ _ _ hi⟩
  digest {R l c m out} hi ho _ hout _ := by
    obtain ⟨l', c', e, hl'⟩ := sha256Digest_eq c ho hi.len hi.fill hout
    rw [Sha256.digest_spec hi] at e
    exact ⟨_, _, e, wrote_put _ _ hl' (by simp) (wrote_refl _ _)⟩
  clear {R c} ho := ⟨_, show sha256Clear dat R c = _ by rw [sha256Clear, fill_eq _ ho]; rfl⟩

/-! ### SHA-1 and SHA-512 -/

/-- The padding and the length in the local arrays, seen from the array `data`. -/
theorem locals_put {dat pad msg B n : Nat} {l : List Byte} {a b : List Byte} (hl : l.length = B) (ha : a.length = n)
    (hb : b.length = n) (h1 : Apart dat B pad B) (h2 : Apart dat B msg (2 * n)) (h3 : Apart pad B msg (2 * n)) (hB : 0 < B) :
    ((((R.put dat l).put pad (List.replicate B 0)).put msg a).put (msg + n) b).put pad [0x80] =
      ((R.put pad (0x80 :: List.replicate (B - 1) 0)).put msg (a ++ b)).put dat l := by
  have e1 : ((R.put pad (List.replicate B 0)).put msg (a ++ b)).put pad [0x80] =
      (R.put pad (0x80 :: List.replicate (B - 1) 0)).put msg (a ++ b) := by
    rw [put_comm (a := msg) (by rw [List.length_append, ha, hb]; show Apart _ _ _ 1; apof h3),
      show (R.put pad (List.replicate B 0)).put pad [0x80] = (R.put pad (List.replicate B 0)).put (pad + 0) [0x80] from rfl,
      put_put_at _ (by rw [List.length_replicate]; exact hB)]
    congr 2
    obtain ⟨k, rfl⟩ : ∃ k, B = k + 1 := ⟨B - 1, by omega⟩
    rfl
  rw [← e1, put_append, ha, put_comm (a := dat) (b := pad) (by rw [List.length_replicate, hl]; exact h1),
    put_comm (a := dat) (b := msg) (by rw [ha, hl]; apof h2), put_comm (a := dat) (b := msg + n) (by rw [hb, hl]; apof h2),
    put_comm (a := dat) (b := pad) (by rw [hl]; show Apart _ _ _ 1; apof h1)]

theorem locals_pad {pad msg B n k : Nat} {a : List Byte} (ha : a.length = 2 * n) (h3 : Apart pad B msg (2 * n)) (hk : k ≤ B)
    (hB : 0 < B) :
    ((R.put pad (0x80 :: List.replicate (B - 1) 0)).put msg a).bytes pad k = (0x80 :: List.replicate (B - 1) 0).take k := by
  rw [bytes_put_apart (by rw [ha]; apof h3), bytes_put_part le_rfl (by simp; omega), Nat.sub_self, List.drop_zero]

/-- The mask as it is written. -/
theorem mask64 (x : BitVec 32) : (x &&& 0x3F#32).toNat < 64 := mask_lt (B := 64) x (by omega)
theorem mask128 (x : BitVec 64) : (x &&& 0x7F#64).toNat < 128 := mask_lt (B := 128) x (by omega)

theorem blkUpdate_len {w : Nat} {σ : Type} {B : Nat} (hB : 0 < B) {f : σ → List Byte → σ} (c : Blk.Ctx w σ) (d : List Byte)
    (h : c.data.length = B) : (Blk.update B f c d).data.length = B := by
  have hm := mask_lt c.len0 hB
  unfold Blk.update
  dsimp only
  generalize (c.len0 &&& BitVec.ofNat w (B - 1)).toNat = left at *
  split
  · exact h
  split
  · next hc =>
    have hk : (Blk.copyTo c.data left (d.take (B - left))).length = B := by
      rw [Blk.copyTo_length] <;> rw [h]
      rw [List.length_take]; omega
    have := whole_lt hB f d.length (f c.state (Blk.copyTo c.data left (d.take (B - left)))) (d.drop (B - left))
      (by rw [List.length_drop]; omega)
    dsimp only
    split
    · rw [Blk.copyTo_length (by omega), hk]
    · exact hk
  · next hc =>
    have h1 := whole_lt hB f d.length c.state d le_rfl
    have h2 := whole_le B f d.length c.state d
    dsimp only
    split
    · rw [Blk.copyTo_length, h]
      by_cases hz : left = 0 <;> omega
    · exact h

theorem sha1Digest_eq {dat pad msg out : Nat} {l : List Byte} (c : Fields 32 Regs5) (ho : R.Owned dat 64) (hl : l.length = 64)
    (hop : R.Owned pad 64) (hom : R.Owned msg 8) (h1 : Apart dat 64 pad 64) (h2 : Apart dat 64 msg 8) (h3 : Apart pad 64 msg 8)
    (hout : R.Owned out 20) :
    ∃ Q c', sha1Digest dat pad msg (R.put dat l) c out =
      some (Q.put out (Sha1.digest ⟨l, c.len0, c.len1, c.state⟩), c') ∧
      Wrote R Q [] [(dat, 64), (pad, 64), (msg, 8)] := by
  have hlt := mask64 c.len0
  have hd := fun (c : Sha1.Ctx) d h => blkUpdate_len (B := 64) (by omega) (f := Sha1.process) c d h
  unfold sha1Digest Sha1.digest Sha1.update
  dsimp only
  rw [fill_eq _ (by ownof hop), Option.bind_some, stores_eq (by exact owned_sub (m := 4) hom (by omega) (by omega)), Option.bind_some,
    stores_eq (by exact owned_sub (m := 4) hom (by omega) (by omega)), Option.bind_some, store_eq (by ownof hop), Option.bind_some,
    locals_put (n := 4) hl rfl rfl h1 h2 h3 (by omega)]
  generalize hpl : (if (c.len0 &&& 0x3F#32).toNat < 56 then 56 - (c.len0 &&& 0x3F#32).toNat else
    120 - (c.len0 &&& 0x3F#32).toNat) = padlen
  have hple : padlen ≤ 64 := by split_ifs at hpl <;> omega
  generalize hm : write32be (c.len0 >>> 29 ||| c.len1 <<< 3) ++ write32be (c.len0 <<< 3) = ml
  have hml : ml.length = 2 * 4 := by rw [← hm]; rfl
  rw [update_eq c (by omega) hl (mask_lt _ (by omega)) (by ownof ho) (by ownof hop) (by apof h1), Option.bind_some,
    locals_pad (n := 4) hml h3 hple (by omega)]
  dsimp only
  rw [update_eq _ (by omega) (hd _ _ hl) (mask_lt _ (by omega)) (by ownof ho) (by ownof hom) (by apof h2), Option.bind_some,
    bytes_put_same (n := 8) hml, stores_eq (by exact hout), Option.map_some]
  exact ⟨_, _, rfl, wrote_put _ _ (hd _ _ (hd _ _ hl)) (by simp) (wrote_put _ _ hml (by simp)
    (wrote_put _ _ (B := 64) (by simp) (by simp) (wrote_refl _ _)))⟩

theorem sha1_computes {dat pad msg : Nat} : Computes (sha1Itf dat pad msg) HashS.sha1 dat 64 20 (2 ^ 32 - 1)
    [(pad, 64), (msg, 8)] (fun l c m => Sha1.Rep ⟨l, c.len0, c.len1, c.state⟩ m) where
  size h := h.len
  len m := by simp [HashS.sha1, Verif.Modes.encodeBE_length]
  init ho := ⟨_, _, by show sha1Init _ _ = _; rw [sha1Init, fill_eq _ ho]; rfl, Sha1.init_rep⟩
  update hi ho hp ha hn := ⟨_, _, update_eq _ (by omega) hi.len (mask_lt _ (by omega)) ho hp ha,
    Sha1.update_rep (by rw [bytes_length]; omega) hi⟩
  digest {R l c m out} hi ho hs hout hap := by
    simp only [AllApart, List.pairwise_cons, List.mem_cons, List.not_mem_nil, or_false, forall_eq_or_imp, forall_eq] at hap
    obtain ⟨Q, c', e, w⟩ := sha1Digest_eq c ho hi.len (hs (pad, 64) (by simp))
      (hs (msg, 8) (by simp)) hap.1.1 hap.1.2 hap.2.1 hout
    rw [Sha1.digest_spec hi] at e
    exact ⟨Q, c', e, w⟩
  clear {R c} ho := ⟨_, show sha1Clear dat R c = _ by rw [sha1Clear, fill_eq _ ho]; rfl⟩

theorem sha512Digest_eq {is384 : Bool} {dat pad msg out : Nat} {l : List Byte} (c : Fields 64 (Regs 64)) (ho : R.Owned dat 128)
    (hl : l.length = 128) (hop : R.Owned pad 128) (hom : R.Owned msg 16) (h1 : Apart dat 128 pad 128) (h2 : Apart dat 128 msg 16)
    (h3 : Apart pad 128 msg 16) (hout : R.Owned out (if is384 then 48 else 64)) :
    ∃ Q c', sha512Digest is384 dat pad msg (R.put dat l) c out =
      some (Q.put out (Sha512.digest is384 ⟨l, c.len0, c.len1, c.state⟩), c') ∧
      Wrote R Q [] [(dat, 128), (pad, 128), (msg, 16)] := by
  have hlt := mask128 c.len0
  have hd := fun (c : Sha512.Ctx) d h => blkUpdate_len (B := 128) (by omega) (f := Sha512.process) c d h
  unfold sha512Digest Sha512.digest Sha512.update
  dsimp only
  rw [fill_eq _ (by ownof hop), Option.bind_some, stores_eq (by exact owned_sub (m := 8) hom (by omega) (by omega)), Option.bind_some,
    stores_eq (by exact owned_sub (m := 8) hom (by omega) (by omega)), Option.bind_some, store_eq (by ownof hop), Option.bind_some,
    locals_put (n := 8) hl rfl rfl h1 h2 h3 (by omega)]
  generalize hpl : (if (c.len0 &&& 0x7F#64).toNat < 112 then 112 - (c.len0 &&& 0x7F#64).toNat else
    128 - (c.len0 &&& 0x7F#64).toNat) = padlen
  have hple : padlen ≤ 128 := by split_ifs at hpl <;> omega
  generalize hm : write64be (c.len0 >>> 61 ||| c.len1 <<< 3) ++ write64be (c.len0 <<< 3) = ml
  have hml : ml.length = 2 * 8 := by rw [← hm]; rfl
  rw [update_eq c (by omega) hl (mask_lt _ (by omega)) (by ownof ho) (by ownof hop) (by apof h1), Option.bind_some,
    locals_pad (n := 8) hml h3 hple (by omega)]
  dsimp only
  rw [update_eq _ (by omega) (hd _ _ hl) (mask_lt _ (by omega)) (by ownof ho) (by ownof hom) (by apof h2), Option.bind_some,
    bytes_put_same (n := 16) hml]
  have hw := fun a b : List Byte => fun ha hb => wrote_put dat a (B := 128) ha (rs := [(dat, 128), (pad, 128), (msg, 16)]) (by simp)
    (wrote_put msg b (B := 16) hb (by simp) (wrote_put pad (0x80 :: List.replicate (128 - 1) 0) (B := 128) (by simp) (by simp)
      (wrote_refl R _)))
  have hp : ∀ (Q : Ram) (a b c : List Byte), a.length = 48 → (Q.put out a).put (out + 48) (b ++ c) = Q.put out (a ++ b ++ c) := by
    intro Q a b c h
    rw [List.append_assoc, put_append _ a, h]
  cases is384
  · rw [stores_eq (by exact owned_sub (m := 48) hout (by simp) (by simp)), Option.bind_some, if_pos rfl, if_pos rfl,
      stores_eq (by exact owned_sub (m := 16) hout (by simp) (by simp)), Option.map_some]
    rw [hp _ _ _ _ rfl]
    exact ⟨_, _, rfl, hw _ _ (hd _ _ (hd ⟨l, c.len0, c.len1, c.state⟩ _ hl)) hml⟩
  · rw [stores_eq (by exact hout), Option.bind_some, if_neg (by simp), if_neg (by simp), Option.map_some]
    exact ⟨_, _, rfl, hw _ _ (hd _ _ (hd ⟨l, c.len0, c.len1, c.state⟩ _ hl)) hml⟩

theorem sha512Code_eq {is384 : Bool} {c : Sha512.Ctx} {m : List Byte} (h : Sha512.Rep is384 c m) :
    Sha512.digest is384 c = sha512Code is384 m := by
  unfold sha512Code
  rw [Sha512.digest_state h]
  split
  · rw [Sha512.out_spec]
  · rw [Sha512.fold_spec, Sha512.iv_eq]
    generalize HashS.mdFold 128 _ _ _ = st
    cases is384
    · have : st.bytes.length = 64 := by simp [HashS.Regs.bytes, Verif.Modes.encodeBE_length]
      exact (List.take_of_length_le (l := st.bytes) (by rw [if_neg (by simp), this])).symm
    · rfl

theorem sha512Code_length (is384 : Bool) (m : List Byte) : (sha512Code is384 m).length = if is384 then 48 else 64 := by
  unfold sha512Code
  have : ∀ st : Regs 64, st.bytes.length = 64 := fun st => by simp [HashS.Regs.bytes, Verif.Modes.encodeBE_length]
  cases is384 <;> simp [HashS.sha512, HashS.sha384, this] <;> split <;> simp [this]

theorem sha512_computes {is384 : Bool} {dat pad msg : Nat} : Computes (sha512Itf is384 dat pad msg)
    (sha512Code is384) dat 128 (if is384 then 48 else 64) (2 ^ 32 - 1)
    [(pad, 128), (msg, 16)] (fun l c m => Sha512.Rep is384 ⟨l, c.len0, c.len1, c.state⟩ m) where
  size h := h.len
  len m := sha512Code_length is384 m
  init ho := ⟨_, _, by show sha512Init _ _ _ = _; rw [sha512Init, fill_eq _ ho]; rfl, Sha512.init_rep is384⟩
  update hi ho hp ha hn := ⟨_, _, update_eq _ (by omega) hi.len (mask_lt _ (by omega)) ho hp ha,
    Sha512.update_rep (by rw [bytes_length]; omega) hi⟩
  digest {R l c m out} hi ho hs hout hap := by
    simp only [AllApart, List.pairwise_cons, List.mem_cons, List.not_mem_nil, or_false, forall_eq_or_imp, forall_eq] at hap
    obtain ⟨Q, c', e, w⟩ := sha512Digest_eq c ho hi.len (hs (pad, 128) (by simp))
      (hs (msg, 16) (by simp)) hap.1.1 hap.1.2 hap.2.1 hout
    rw [sha512Code_eq hi] at e
    exact ⟨Q, c', e, w⟩
  clear {R c} ho := ⟨_, show sha512Clear dat R c = _ by rw [sha512Clear, fill_eq _ ho]; rfl⟩

/-! ### MD5 -/

theorem md5Words_eq {dat n : Nat} {l : List Byte} (hl : l.length = 64) (ho : R.Owned dat 64) (hn : 4 * n ≤ 64) :
    md5Words dat (R.put dat l) n = some ((List.range n).map (Md5.word l)) := by
  unfold md5Words
  rw [if_pos ⟨by ownof ho, hn⟩]
  rw [Option.some.injEq]
  refine List.map_congr_left fun i hi => ?_
  have hi := List.mem_range.1 hi
  have hg : ∀ j, j < 64 → (R.put dat l).mem (dat + j) = l.getD j 0 := by
    intro j hj
    rw [put_mem_in (by omega), List.getD_eq_getElem?_getD, List.getElem?_eq_getElem (by omega)]; rfl
  unfold Md5.word
  rw [hg _ (by omega), hg _ (by omega), hg _ (by omega), hg _ (by omega)]

theorem feed_len : ∀ (d : List Byte) (mdi : Nat) (data : List Byte) (st : Regs4),
    (Md5.feed mdi data st d).1.length = data.length
  | [], _, _, _ => rfl
  | x :: d, mdi, data, st => by
    rw [Md5.feed]
    split
    · rw [feed_len, List.length_set]
    · rw [feed_len, List.length_set]

theorem md5Feed_eq {dat : Nat} (ho : R.Owned dat 64) : ∀ (n p mdi : Nat) (l : List Byte) (st : Regs4), l.length = 64 →
    mdi < 64 → R.Owned p n → Apart dat 64 p n →
    md5Feed dat (R.put dat l) mdi st p n =
      some (R.put dat (Md5.feed mdi l st (R.bytes p n)).1, (Md5.feed mdi l st (R.bytes p n)).2)
  | 0, p, mdi, l, st, _, _, _, _ => by simp [md5Feed, Md5.feed]
  | n + 1, p, mdi, l, st, hl, hc, hp, ha => by
    have hx : (R.put dat l).mem p = R.mem p := put_mem_out (by rw [hl]; unfold Apart at ha; omega)
    rw [md5Feed, load_eq (by ownof hp), Option.bind_some, storeIn_eq hl hc ho, Option.bind_some, bytes_cons, Md5.feed, hx]
    have hl' : (l.set mdi (R.mem p)).length = 64 := by rw [List.length_set, hl]
    split
    · rw [md5Words_eq hl' ho (by omega), Option.bind_some, md5Feed_eq ho n (p + 1) 0 _ _ hl' (by omega) (by ownof hp) (by apof ha)]
    · rw [md5Feed_eq ho n (p + 1) (mdi + 1) _ _ hl' (by omega) (by ownof hp) (by apof ha)]

theorem md5Update_eq {dat p len : Nat} {l : List Byte} (c : Fields 32 Regs4) (hl : l.length = 64) (ho : R.Owned dat 64)
    (hp : R.Owned p len) (ha : Apart dat 64 p len) :
    md5Update dat (R.put dat l) c p len =
      some (R.put dat (Md5.update ⟨l, c.len0, c.len1, c.state⟩ (R.bytes p len)).data,
        ⟨(Md5.update ⟨l, c.len0, c.len1, c.state⟩ (R.bytes p len)).len0,
         (Md5.update ⟨l, c.len0, c.len1, c.state⟩ (R.bytes p len)).len1,
         (Md5.update ⟨l, c.len0, c.len1, c.state⟩ (R.bytes p len)).state⟩) := by
  unfold md5Update Md5.update
  dsimp only
  rw [md5Feed_eq ho _ _ _ _ _ hl (mask64 _) hp ha, Option.map_some, bytes_length]

theorem md5Digest_eq {dat pad out : Nat} {l : List Byte} (c : Fields 32 Regs4) (ho : R.Owned dat 64) (hl : l.length = 64)
    (hop : R.Owned pad 64) (h1 : Apart dat 64 pad 64) (hout : R.Owned out 16) :
    ∃ Q c', md5Digest dat pad (R.put dat l) c out =
      some (Q.put out (Md5.digest ⟨l, c.len0, c.len1, c.state⟩), c') ∧
      Wrote R Q [] [(dat, 64), (pad, 64)] := by
  have hlt := mask64 (c.len0 >>> 3)
  have hd : ∀ d, (Md5.update ⟨l, c.len0, c.len1, c.state⟩ d).data.length = 64 := by
    intro d
    unfold Md5.update
    exact (feed_len _ _ _ _).trans hl
  unfold md5Digest Md5.digest
  dsimp only
  generalize hpl : (if (c.len0 >>> 3 &&& 0x3F#32).toNat < 56 then 56 - (c.len0 >>> 3 &&& 0x3F#32).toNat else
    120 - (c.len0 >>> 3 &&& 0x3F#32).toNat) = padlen
  have hple : padlen ≤ 64 := by split_ifs at hpl <;> omega
  have e1 : ((R.put dat l).put pad (List.replicate 64 0)).put pad [0x80] =
      (R.put pad (0x80 :: List.replicate 63 0)).put dat l := by
    rw [show ((R.put dat l).put pad (List.replicate 64 0)).put pad [0x80] =
      ((R.put dat l).put pad (List.replicate 64 0)).put (pad + 0) [0x80] from rfl,
      put_put_at _ (by rw [List.length_replicate]; omega), put_comm (by rw [hl, List.length_set, List.length_replicate]; exact h1)]
    rfl
  rw [fill_eq _ (by ownof hop), Option.bind_some, store_eq (by ownof hop), Option.bind_some, e1,
    md5Update_eq c hl (by ownof ho) (by ownof hop) (by apof h1), Option.bind_some,
    bytes_put_part (n := padlen) le_rfl (by simp; omega), Nat.sub_self, List.drop_zero]
  dsimp only
  rw [md5Words_eq (hd _) (by ownof ho) (by omega), Option.bind_some, stores_eq (by exact hout), Option.map_some]
  exact ⟨_, _, rfl, wrote_put _ _ (hd _) (by simp) (wrote_put _ _ (B := 64) (by simp) (by simp) (wrote_refl _ _))⟩

theorem md5_computes {dat pad : Nat} : Computes (md5Itf dat pad) HashS.md5 dat 64 16 (2 ^ 32 - 1)
    [(pad, 64)] (fun l c m => Md5.Rep ⟨l, c.len0, c.len1, c.state⟩ m) where
  size h := h.len
  len m := by simp [HashS.md5, Verif.Modes.encodeBE_length]
  init ho := ⟨_, _, by show md5Init _ _ = _; rw [md5Init, fill_eq _ ho]; rfl, Md5.init_rep⟩
  update hi ho hp ha hn := ⟨_, _, md5Update_eq _ hi.len ho hp ha, Md5.update_rep (by rw [bytes_length]; omega) hi⟩
  digest {R l c m out} hi ho hs hout hap := by
    simp only [AllApart, List.pairwise_cons, List.mem_cons, List.not_mem_nil, or_false, forall_eq] at hap
    obtain ⟨Q, c', e, w⟩ := md5Digest_eq c ho hi.len (hs (pad, 64) (by simp)) hap.1 hout
    rw [Md5.digest_spec hi] at e
    exact ⟨Q, c', e, w⟩
  clear {R c} ho := ⟨_, show md5Clear dat R c = _ by rw [md5Clear, fill_eq _ ho]; rfl⟩

end Verif.RamHash
