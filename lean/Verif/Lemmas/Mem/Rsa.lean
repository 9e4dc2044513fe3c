import Verif.Model.Mem.Rsa
import Verif.Lemmas.Mem.Any
import Verif.Lemmas.Mem.Prime
import Verif.Props.Mem.Conv
import Verif.Props.Pk.Rsa
/-! RSA in memory, whichever allocations fail: each function ends like the function on values of Model/Pk/Rsa, or reports
that an allocation failed, or runs into the undefined behaviour of the power function. -/
namespace Verif.Mem
open Verif.Mpi

variable {w sp n e d padding : Nat} {K : Ctx} {A : Env} {s : St} {X N : Nat}

theorem two_list (v : Nat) : v ∈ [sp, sp + 1] ↔ sp ≤ v ∧ v < sp + 2 := by
  simp only [List.mem_cons, List.not_mem_nil, or_false]; omega

/-- `cry_mpi_load_bin` and `cry_mpi_mod_exp`. -/
theorem rsaPow_any (hw : DigitWidth w) {x y k i j : Nat} (h : At K (NV w sp A [0, 0]) (sp + 2) s) (hx : x = sp + i) (hy : y = sp + j) (hi : i < 2) (hj : j < 2)
    (hks : k < sp) (hns : n < sp) (hk : ∀ o, A k o → o.Shows w X) (hn : ∀ o, A n o → o.Shows w N) (hX : 0 < X) (hN : 1 < N) (buf : List Byte) :
    (∃ s' L, chk (loadBin w x buf) (modExp w (sp + 2) y x k (some n)) s = .ok (0, s') ∧ At K (NV w sp A L) (sp + 2) s' ∧
      L.getD j 0 = ((beVal buf ^ X % N : Nat) : Int)) ∨
    (∃ s' L, chk (loadBin w x buf) (modExp w (sp + 2) y x k (some n)) s = .ok (-1, s') ∧ Bad K s' ∧ At K (NV w sp A L) (sp + 2) s') ∨
    (chk (loadBin w x buf) (modExp w (sp + 2) y x k (some n)) s = .ub ∧ K.May) := by
  have h0 : ([0, 0] : List Int).getD i 0 = 0 := by
    rcases (by omega : i = 0 ∨ i = 1) with rfl | rfl <;> rfl
  rcases cn_any h hi rfl (loadBin_v hw (Nums.val h hi) (by rw [h0]) buf) (fun o ho => ho.any) rfl with ⟨s1, e1, h1⟩ | ⟨s1, L, e1, b1, h1⟩
  · have hsrc : Src w sp 2 A (([0, 0] : List Int).set i (beVal buf)) x (beVal buf) := by
      have := Src.loc (w := w) (A := A) (L := ([0, 0] : List Int).set i (beVal buf)) hx hi
      rcases (by omega : i = 0 ∨ i = 1) with rfl | rfl <;> exact this
    have hlen : (([0, 0] : List Int).set i (beVal buf)).length = 2 := by simp
    subst hx
    rw [chk_ok e1]
    rcases cn_modExp_any rfl hw h1 hlen hy hj hsrc (Src.arg hks hk) (Src.arg hns hn) hX hN rfl rfl with ⟨s2, e2, h2⟩ | ⟨s2, L, e2, b2, h2⟩ | ⟨e2, m2⟩
    · refine Or.inl ⟨s2, _, e2, h2, ?_⟩
      rw [List.getD_eq_getElem?_getD, List.getElem?_set_self (by rw [hlen]; exact hj)]
      simp
    · exact Or.inr (Or.inl ⟨s2, L, e2, b2, h2⟩)
    · exact Or.inr (Or.inr ⟨e2, m2⟩)
  · subst hx
    exact Or.inr (Or.inl ⟨s1, L, chk_fail e1 (by decide), b1, h1⟩)

/-- How a function ends, compared with the function `r` on values. -/
def EndsAs {α β : Type} (K : Ctx) (A : Env) (sp : Nat) (r : Rsa.Res β) (good : β → Int × α) (run : Out ((Int × α) × St)) : Prop :=
  (run = .ub ∧ (r = .ub ∨ K.May)) ∨ (run = .hang ∧ r = .hang) ∨
  (∃ b s', run = .ok ((-1, b), s') ∧ At K A sp s' ∧ (r = .fail ∨ Bad K s')) ∨
  (∃ v s', r = .ok v ∧ run = .ok (good v, s') ∧ At K A sp s')

/-- The end of a function with two locals and a block of bytes. -/
theorem blockEnd {α : Type} {L : List Int} (h : At K.more (NV w sp A L) (sp + 2) s) (r : α) :
    ∃ s', (do clearList [sp, sp + 1]; release; pure r : M α) s = .ok (r, s') ∧ At K A sp s' ∧ (Bad K s → Bad K s') := by
  have h' : At (Ctx.more { K with T := s.tick }) (NV w sp A L) (sp + 2) s := ⟨h.objs, h.bal, h.orc, le_refl _⟩
  obtain ⟨s1, e1, h1⟩ := clearList_calm h' two_list
  obtain ⟨s2, e2, h2⟩ := release_more h1
  have ht : s.tick ≤ s2.tick := h2.tick
  exact ⟨s2, by rw [bind_ok e1, bind_ok e2]; rfl, ⟨h2.objs, h2.bal, h2.orc, le_trans h.tick ht⟩, fun ⟨k, k1, k2, k3⟩ => ⟨k, k1, by omega, k3⟩⟩

/-- The objects of the modulus and of the exponent. -/
structure KeyAt (w : Nat) (A : Env) (sp n x N X : Nat) : Prop where
  ns : n < sp
  xs : x < sp
  n : ∀ o, A n o → o.Shows w N
  x : ∀ o, A x o → o.Shows w X
  one : 1 < N
  pos : 0 < X

variable {c : Rsa.Ctx}

/-- `encrypt_block`. -/
theorem rsaEncBlock_any (hw : DigitWidth w) (h : At K A sp s) (sign : Bool) (hk : KeyAt w A sp n (if sign then d else e) N X) (cn : NatRep w c.n N) (cx : NatRep w (if sign then c.d else c.e) X)
    (cp : c.padding = padding) (b : Buf) (off : Nat) (hb : off + (N.size + 7) / 8 ≤ b.length) (src : List Byte) (rnd : Nat → Byte) :
    EndsAs K A sp (Rsa.encryptBlock w c src sign rnd) (fun ct => (0, b.take off ++ ct.map some ++ b.drop (off + (N.size + 7) / 8)))
      (rsaEncBlock w sp n e d padding b off src sign rnd s) := by
  have hw0 : 0 < w := by have := hw.pos; omega
  have hlen : Mpi.countBytes w c.n = (N.size + 7) / 8 := by unfold Mpi.countBytes; rw [cn.countBits hw]
  have e0 : countBytes w n s = .ok ((N.size + 7) / 8, s) := countBytes_shows hw (hk.n _ (h.objs n hk.ns))
  have hval : Rsa.encryptBlock w c src sign rnd = (rsaPad ((N.size + 7) / 8) padding src sign rnd).bind fun buf =>
      (Rsa.ofOption (Mpi.modExp w (Mpi.loadBin w false buf) (if sign then c.d else c.e) (some c.n))).bind fun m =>
        Rsa.ofOption (Mpi.storeBin w m ((N.size + 7) / 8) true) := by
    unfold Rsa.encryptBlock rsaPad
    dsimp only
    rw [hlen, cp]
  unfold rsaEncBlock
  rw [bind_ok e0]
  rcases request_any h with ⟨s1, e1, h1, b1⟩ | ⟨s1, e1, h1⟩
  · rw [bind_ok e1]
    exact Or.inr (Or.inr (Or.inl ⟨b, s1, rfl, h1, Or.inr b1⟩))
  rw [bind_ok e1, if_pos rfl]
  obtain ⟨s2, e2, h2⟩ := decl_run h1 2
  rw [bind_ok e2]
  rcases initList_any hw0 h2 two_list (by simp) with ⟨s3, e3, h3⟩ | ⟨s3, e3, b3, h3⟩
  swap
  · obtain ⟨s4, e4, h4⟩ := release_more h3
    rw [bind_ok e3, if_pos (by decide), bind_ok e4]
    have hb4 : Bad K s4 := by cases e4; exact b3
    exact Or.inr (Or.inr (Or.inl ⟨b, s4, rfl, h4, Or.inr hb4⟩))
  rw [bind_ok e3, if_neg (by decide), hval]
  cases hp : rsaPad ((N.size + 7) / 8) padding src sign rnd with
  | ub => exact Or.inl ⟨rfl, Or.inl rfl⟩
  | hang => exact Or.inr (Or.inl ⟨rfl, rfl⟩)
  | fail =>
    obtain ⟨s4, e4, h4, -⟩ := blockEnd h3 ((-1, b) : Int × Buf)
    exact Or.inr (Or.inr (Or.inl ⟨b, s4, by rw [bind_ok (show (pure (-1, b) : M (Int × Buf)) s3 = _ from rfl)]; exact e4, h4, Or.inl rfl⟩))
  | ok buf =>
    obtain ⟨m, blk, v1, v2, v3, v4⟩ := Rsa.power_block hw cn hk.one cx buf
    rw [hlen] at v2 v3
    dsimp only [Rsa.Res.bind]
    rw [v1]
    dsimp only [Rsa.ofOption]
    rw [v2]
    rcases rsaPow_any (x := sp + 1) (y := sp) (i := 1) (j := 0) hw h3 rfl rfl (by omega) (by omega) hk.xs hk.ns hk.x hk.n hk.pos hk.one buf with
      ⟨s4, L, e4, h4, hL⟩ | ⟨s4, L, e4, b4, h4⟩ | ⟨e4, m4⟩
    · have hv := h4.objs sp (by omega)
      have q0 := NV.hi (w := w) (sp := sp) (A := A) (L := L) (i := 0)
      rw [Nat.add_zero, hL] at q0
      rw [q0] at hv
      have hlt : beVal buf ^ X % N < 256 ^ ((N.size + 7) / 8) := by
        rw [← hlen]; exact (Nat.mod_lt _ (by have := hk.one; omega)).trans (cn.lt_countBytes hw)
      obtain ⟨bs, c1, c2, c3⟩ := mem_storeBin (p := off) (bufsiz := (N.size + 7) / 8) hw hv.shows true (b := b) (by rwa [Int.natAbs_natCast]) (by rwa [if_pos rfl])
      rw [if_pos rfl] at c3
      rw [Int.natAbs_natCast] at c2
      have : bs = blk := beVal_inj (by rw [c3, v3]) (by rw [c2, v4])
      subst this
      rw [c3] at c1
      obtain ⟨s5, e5, h5, -⟩ := blockEnd h4 ((0, b.take off ++ bs.map some ++ b.drop (off + (N.size + 7) / 8)) : Int × Buf)
      refine Or.inr (Or.inr (Or.inr ⟨bs, s5, rfl, ?_, h5⟩))
      rw [bind_ok (show (do
          let st ← chk (loadBin w (sp + 1) buf) (modExp w (sp + 2) sp (sp + 1) (if sign then d else e) (some n))
          if st ≠ 0 then pure (st, b) else storeBin w sp b off ((N.size + 7) / 8) true : M (Int × Buf)) s3 = _ from by
        rw [bind_ok e4, if_neg (by decide)]; exact c1)]
      exact e5
    · obtain ⟨s5, e5, h5, b5⟩ := blockEnd h4 ((-1, b) : Int × Buf)
      refine Or.inr (Or.inr (Or.inl ⟨b, s5, ?_, h5, Or.inr (b5 b4)⟩))
      rw [bind_ok (show (do
          let st ← chk (loadBin w (sp + 1) buf) (modExp w (sp + 2) sp (sp + 1) (if sign then d else e) (some n))
          if st ≠ 0 then pure (st, b) else storeBin w sp b off ((N.size + 7) / 8) true : M (Int × Buf)) s3 = _ from by
        rw [bind_ok e4, if_pos (by decide)]; rfl)]
      exact e5
    · refine Or.inl ⟨?_, Or.inr m4⟩
      rw [bind_apply, bind_apply, e4]

theorem bufBytes_run : ∀ (bs : List Byte) (s : St), bufBytes (bs.map some) s = .ok (bs, s)
  | [], _ => rfl
  | b :: bs, s => by
    show bufBytes (some b :: bs.map some) s = _
    unfold bufBytes
    rw [bind_ok (bufBytes_run bs s)]; rfl

theorem delScan_len (dlen : Nat) (sign : Bool) : ∀ (l : List Byte) {r : List Byte}, Rsa.delScan dlen sign l = .ok r → r.length ≤ dlen
  | [], r, h => by cases h
  | b :: bs, r, h => by
    unfold Rsa.delScan at h
    split_ifs at h
    · cases h; simp
    · exact delScan_len dlen sign bs h

theorem paddingDel_len {dlen : Nat} {src : List Byte} {sign : Bool} {r : List Byte} (h : Rsa.paddingDel dlen src sign = .ok r) : r.length ≤ dlen := by
  unfold Rsa.paddingDel at h
  split at h
  · cases h
  · split_ifs at h
  · split_ifs at h
    exact delScan_len _ _ _ h

theorem rsaUnpad_len {modLen : Nat} {buf : List Byte} {sign : Bool} {r : List Byte} (hl : buf.length = modLen) (h : rsaUnpad modLen padding buf sign = .ok r) :
    r.length ≤ modLen := by
  unfold rsaUnpad at h
  split_ifs at h
  · exact paddingDel_len h
  · cases h; omega

theorem rsaUnpad_nohang {modLen : Nat} {buf : List Byte} {sign : Bool} : rsaUnpad modLen padding buf sign ≠ .hang := by
  have key : ∀ l : List Byte, Rsa.delScan modLen sign l ≠ .hang := by
    intro l
    induction l with
    | nil => simp [Rsa.delScan]
    | cons b bs ih => unfold Rsa.delScan; split_ifs <;> simp_all
  unfold rsaUnpad Rsa.paddingDel
  split_ifs
  · split
    · simp
    · split_ifs <;> simp
    · split_ifs
      · simp
      · exact key _
  · simp

/-- `decrypt_block` with an input of the right length. -/
theorem rsaDecBlock_any (hw : DigitWidth w) (h : At K A sp s) (sign : Bool) (hk : KeyAt w A sp n (if sign then e else d) N X) (cn : NatRep w c.n N) (cx : NatRep w (if sign then c.e else c.d) X)
    (cp : c.padding = padding) (b : Buf) (hb : (N.size + 7) / 8 ≤ b.length) (src : List Byte) :
    EndsAs K A sp (Rsa.decryptBlock w c src sign) (fun bs => ((bs.length : Int), bs.map some ++ b.drop bs.length))
      (rsaDecBlock w sp n e d padding b src sign s) := by
  have hw0 : 0 < w := by have := hw.pos; omega
  have hlen : Mpi.countBytes w c.n = (N.size + 7) / 8 := by unfold Mpi.countBytes; rw [cn.countBits hw]
  have e0 : countBytes w n s = .ok ((N.size + 7) / 8, s) := countBytes_shows hw (hk.n _ (h.objs n hk.ns))
  unfold rsaDecBlock
  rw [bind_ok e0]
  by_cases hsl : src.length ≠ (N.size + 7) / 8
  · rw [if_pos hsl]
    refine Or.inr (Or.inr (Or.inl ⟨b, s, rfl, h, Or.inl ?_⟩))
    unfold Rsa.decryptBlock
    dsimp only
    rw [hlen, if_pos hsl]
  rw [if_neg hsl]
  have hval : Rsa.decryptBlock w c src sign =
      (Rsa.ofOption (Mpi.modExp w (Mpi.loadBin w false src) (if sign then c.e else c.d) (some c.n))).bind fun m =>
        (Rsa.ofOption (Mpi.storeBin w m ((N.size + 7) / 8) true)).bind fun buf => rsaUnpad ((N.size + 7) / 8) padding buf sign := by
    unfold Rsa.decryptBlock rsaUnpad
    dsimp only
    rw [hlen, if_neg hsl, cp]
  rcases request_any h with ⟨s1, e1, h1, b1⟩ | ⟨s1, e1, h1⟩
  · rw [bind_ok e1]
    exact Or.inr (Or.inr (Or.inl ⟨b, s1, rfl, h1, Or.inr b1⟩))
  rw [bind_ok e1, if_pos rfl]
  obtain ⟨s2, e2, h2⟩ := decl_run h1 2
  rw [bind_ok e2]
  rcases initList_any hw0 h2 two_list (by simp) with ⟨s3, e3, h3⟩ | ⟨s3, e3, b3, h3⟩
  swap
  · obtain ⟨s4, e4, h4⟩ := release_more h3
    rw [bind_ok e3, if_pos (by decide), bind_ok e4]
    have hb4 : Bad K s4 := by cases e4; exact b3
    exact Or.inr (Or.inr (Or.inl ⟨b, s4, rfl, h4, Or.inr hb4⟩))
  rw [bind_ok e3, if_neg (by decide), hval]
  obtain ⟨m, blk, v1, v2, v3, v4⟩ := Rsa.power_block hw cn hk.one cx src
  rw [hlen] at v2 v3
  rw [v1]
  dsimp only [Rsa.Res.bind, Rsa.ofOption]
  rw [v2]
  dsimp only
  rcases rsaPow_any (x := sp) (y := sp + 1) (i := 0) (j := 1) hw h3 rfl rfl (by omega) (by omega) hk.xs hk.ns hk.x hk.n hk.pos hk.one src with
    ⟨s4, L, e4, h4, hL⟩ | ⟨s4, L, e4, b4, h4⟩ | ⟨e4, m4⟩
  · rw [bind_ok e4, if_neg (by decide)]
    have hv := h4.objs (sp + 1) (by omega)
    have q0 := NV.hi (w := w) (sp := sp) (A := A) (L := L) (i := 1)
    rw [hL] at q0
    rw [q0] at hv
    have hlt : beVal src ^ X % N < 256 ^ ((N.size + 7) / 8) := by
      rw [← hlen]; exact (Nat.mod_lt _ (by have := hk.one; omega)).trans (cn.lt_countBytes hw)
    obtain ⟨bs, c1, c2, c3⟩ := mem_storeBin (p := 0) (bufsiz := (N.size + 7) / 8) hw hv.shows true (b := List.replicate ((N.size + 7) / 8) none)
      (by rwa [Int.natAbs_natCast]) (by rw [if_pos rfl, List.length_replicate]; omega)
    rw [if_pos rfl] at c3
    rw [Int.natAbs_natCast] at c2
    have : bs = blk := beVal_inj (by rw [c3, v3]) (by rw [c2, v4])
    subst this
    rw [List.take_zero, List.nil_append, Nat.zero_add, List.drop_of_length_le (by rw [List.length_replicate, c3]), List.append_nil] at c1
    have hun : rsaTake w (sp + 1) ((N.size + 7) / 8) padding b sign s4 = rsaGive b (rsaUnpad ((N.size + 7) / 8) padding bs sign) s4 := by
      unfold rsaTake
      rw [bind_ok c1, if_neg (by simp), bind_ok (bufBytes_run bs s4)]
    cases hr : rsaUnpad ((N.size + 7) / 8) padding bs sign with
    | hang => exact absurd hr rsaUnpad_nohang
    | ub =>
      refine Or.inl ⟨?_, Or.inl rfl⟩
      rw [bind_apply, hun, hr]; rfl
    | fail =>
      obtain ⟨s5, e5, h5, -⟩ := blockEnd h4 ((-1, b) : Int × Buf)
      refine Or.inr (Or.inr (Or.inl ⟨b, s5, ?_, h5, Or.inl rfl⟩))
      rw [bind_ok (hun.trans (by rw [hr]; rfl))]
      exact e5
    | ok r =>
      have hrl := rsaUnpad_len (by rw [c3]) hr
      obtain ⟨s5, e5, h5, -⟩ := blockEnd h4 (((r.length : Int), r.map some ++ b.drop r.length) : Int × Buf)
      refine Or.inr (Or.inr (Or.inr ⟨r, s5, rfl, ?_, h5⟩))
      have hp : putFirst b r s4 = .ok (r.map some ++ b.drop r.length, s4) := by unfold putFirst; rw [if_pos (by omega)]; rfl
      rw [bind_ok (hun.trans (by rw [hr]; exact bind_ok hp))]
      exact e5
  · rw [bind_ok e4, if_pos (by decide)]
    obtain ⟨s5, e5, h5, b5⟩ := blockEnd h4 ((-1, b) : Int × Buf)
    exact Or.inr (Or.inr (Or.inl ⟨b, s5, e5, h5, Or.inr (b5 b4)⟩))
  · refine Or.inl ⟨?_, Or.inr m4⟩
    rw [bind_apply, e4]

/-- The allocator: one more block if there is an output. -/
def Ctx.with (K : Ctx) (out : Option Buf) : Ctx := if out.isSome then K.more else K

theorem reallocBuf_any {out : Option Buf} (h : At (K.with out) A sp s) (size : Nat) :
    (∃ s', reallocBuf out size s = .ok (none, s') ∧ At (K.with out) A sp s' ∧ Bad K s') ∨
    ∃ s', reallocBuf out size s = .ok (some ((out.getD []).take size ++ List.replicate (size - (out.getD []).length) none), s') ∧ At K.more A sp s' := by
  unfold reallocBuf
  cases out with
  | none =>
    show (∃ s', (request 1 >>= _) s = _ ∧ _ ∧ _) ∨ ∃ s', (request 1 >>= _) s = _ ∧ _
    rcases request_any (K := K) h with ⟨s1, e1, h1, b1⟩ | ⟨s1, e1, h1⟩
    · exact Or.inl ⟨s1, by rw [bind_ok e1]; rfl, h1, b1⟩
    · exact Or.inr ⟨s1, by rw [bind_ok e1]; rfl, h1⟩
  | some b =>
    show (∃ s', (request 0 >>= _) s = _ ∧ _ ∧ _) ∨ ∃ s', (request 0 >>= _) s = _ ∧ _
    rcases request_zero (K := K.more) h with ⟨s1, e1, h1, b1⟩ | ⟨s1, e1, h1⟩
    · exact Or.inl ⟨s1, by rw [bind_ok e1]; rfl, h1, b1⟩
    · exact Or.inr ⟨s1, by rw [bind_ok e1]; rfl, h1⟩

/-- How a loop ends. -/
def LoopEnds {β : Type} (K : Ctx) (A : Env) (sp : Nat) (r : Rsa.Res β) (good : β → Option Buf × Nat → Prop) (run : Out ((Int × Option Buf × Nat) × St)) : Prop :=
  (run = .ub ∧ (r = .ub ∨ K.May)) ∨ (run = .hang ∧ r = .hang) ∨
  (∃ x s', run = .ok ((-1, x), s') ∧ At (K.with x.1) A sp s' ∧ (r = .fail ∨ Bad K s')) ∨
  (∃ v x s', r = .ok v ∧ run = .ok ((0, x), s') ∧ At (K.with x.1) A sp s' ∧ good v x)

theorem encLoop_any (hw : DigitWidth w) (sign : Bool) (hk : KeyAt w A sp n (if sign then d else e) N X) (cn : NatRep w c.n N) (cx : NatRep w (if sign then c.d else c.e) X)
    (cp : c.padding = padding) (rnd : Nat → Nat → Byte) : ∀ (fuel i bsz : Nat) (inp : List Byte) (out : Option Buf) (outlen : Nat) (s : St),
    At (K.with out) A sp s → (out.getD []).length = outlen →
    LoopEnds K A sp (Rsa.encLoop w c sign rnd fuel i bsz inp)
      (fun ct x => x.1.getD [] = out.getD [] ++ ct.map some ∧ x.2 = outlen + ct.length ∧ (inp ≠ [] → x.1.isSome))
      (rsaEncLoop w sp n e d padding sign rnd ((N.size + 7) / 8) fuel i bsz inp out outlen s) := by
  have hlen : Mpi.countBytes w c.n = (N.size + 7) / 8 := by unfold Mpi.countBytes; rw [cn.countBits hw]
  intro fuel
  induction fuel with
  | zero => intro i bsz inp out outlen s _ _; exact Or.inr (Or.inl ⟨rfl, rfl⟩)
  | succ fuel ih =>
    intro i bsz inp out outlen s h ho
    unfold rsaEncLoop Rsa.encLoop
    by_cases h0 : inp = []
    · rw [if_pos h0, if_pos h0]
      exact Or.inr (Or.inr (Or.inr ⟨[], (out, outlen), s, rfl, rfl, h, by simp, by simp, fun h => absurd h0 h⟩))
    rw [if_neg h0, if_neg h0]
    dsimp only
    generalize (if inp.length < bsz then inp.length else bsz) = bz
    rcases reallocBuf_any h (outlen + (N.size + 7) / 8) with ⟨s1, e1, h1, b1⟩ | ⟨s1, e1, h1⟩
    · rw [bind_ok e1]
      exact Or.inr (Or.inr (Or.inl ⟨(out, outlen), s1, rfl, h1, Or.inr b1⟩))
    rw [bind_ok e1]
    dsimp only
    have hb : (out.getD []).take (outlen + (N.size + 7) / 8) ++ List.replicate (outlen + (N.size + 7) / 8 - (out.getD []).length) none =
        out.getD [] ++ List.replicate ((N.size + 7) / 8) none := by
      rw [List.take_of_length_le (by omega), ho, Nat.add_sub_cancel_left]
    rw [hb]
    generalize hB : out.getD [] ++ List.replicate ((N.size + 7) / 8) (none : Option Byte) = B
    have hBl : B.length = outlen + (N.size + 7) / 8 := by rw [← hB]; simp; omega
    rcases rsaEncBlock_any hw h1 sign hk cn cx cp B outlen (by omega) (inp.take bz) (rnd i) with ⟨e2, q⟩ | ⟨e2, q⟩ | ⟨b, s2, e2, h2, q⟩ | ⟨ct, s2, v2, e2, h2⟩
    · refine Or.inl ⟨by rw [bind_apply, e2], ?_⟩
      rcases q with q | q
      · left; rw [q]; rfl
      · exact Or.inr q
    · exact Or.inr (Or.inl ⟨by rw [bind_apply, e2], by rw [q]; rfl⟩)
    · refine Or.inr (Or.inr (Or.inl ⟨(some b, outlen), s2, ?_, h2, ?_⟩))
      · rw [bind_ok e2]; rfl
      · rcases q with q | q
        · left; rw [q]; rfl
        · exact Or.inr q
    · rw [bind_ok e2, v2]
      dsimp only [Rsa.Res.bind]
      rw [if_neg (by decide)]
      have hct : ct.length = (N.size + 7) / 8 := by
        unfold Rsa.encryptBlock at v2
        dsimp only at v2
        rw [hlen] at v2
        generalize (if c.padding ≠ 0 then _ else _ : Rsa.Res (List Byte)) = r0 at v2
        cases r0 with
        | ub => cases v2
        | hang => cases v2
        | fail => cases v2
        | ok buf =>
          obtain ⟨m, blk, w1, w2, w3, -⟩ := Rsa.power_block hw cn hk.one cx buf
          rw [hlen] at w2 w3
          dsimp only [Rsa.Res.bind] at v2
          rw [w1] at v2
          dsimp only [Rsa.ofOption] at v2
          rw [w2] at v2
          cases v2; exact w3
      have hnew : B.take outlen ++ ct.map some ++ B.drop (outlen + (N.size + 7) / 8) = out.getD [] ++ ct.map some := by
        rw [List.drop_of_length_le (by omega), List.append_nil, ← hB, List.take_left' ho]
      rw [hnew]
      have := ih (i + 1) bz (inp.drop bz) (some (out.getD [] ++ ct.map some)) (outlen + (N.size + 7) / 8) s2 h2 (by simp; omega)
      rcases this with ⟨e3, q⟩ | ⟨e3, q⟩ | ⟨x, s3, e3, h3, q⟩ | ⟨v, x, s3, v3, e3, h3, g1, g2, g3⟩
      · refine Or.inl ⟨e3, ?_⟩
        rcases q with q | q
        · left; rw [q]
        · exact Or.inr q
      · exact Or.inr (Or.inl ⟨e3, by rw [q]⟩)
      · refine Or.inr (Or.inr (Or.inl ⟨x, s3, e3, h3, ?_⟩))
        rcases q with q | q
        · left; rw [q]
        · exact Or.inr q
      · refine Or.inr (Or.inr (Or.inr ⟨ct ++ v, x, s3, by rw [v3], e3, h3, ?_, ?_, fun _ => ?_⟩))
        · rw [g1]; simp
        · rw [g2, List.length_append]; omega
        · cases hx : x.1 with
          | some b => rfl
          | none =>
            rw [hx] at g1
            have : ct = [] := by have := (congrArg List.length g1).symm; simp at this; exact this.2.1
            rw [this] at hct
            have := Nat.size_pos.2 (show 0 < N by have := hk.one; omega)
            simp at hct; omega

theorem decLoop_any (hw : DigitWidth w) (sign : Bool) (hk : KeyAt w A sp n (if sign then e else d) N X) (cn : NatRep w c.n N) (cx : NatRep w (if sign then c.e else c.d) X)
    (cp : c.padding = padding) : ∀ (fuel : Nat) (inp : List Byte) (out : Option Buf) (outlen : Nat) (s : St),
    At (K.with out) A sp s → (out.getD []).length ≤ outlen + (N.size + 7) / 8 → outlen ≤ (out.getD []).length →
    LoopEnds K A sp (Rsa.decLoop w c sign fuel (out.getD []) outlen inp)
      (fun v x => x.1.getD [] = v.1 ∧ x.2 = v.2 ∧ x.2 ≤ (x.1.getD []).length ∧ (out.isSome ∨ inp ≠ [] → x.1.isSome))
      (rsaDecLoop w sp n e d padding sign ((N.size + 7) / 8) fuel inp out outlen s) := by
  have hlen : Mpi.countBytes w c.n = (N.size + 7) / 8 := by unfold Mpi.countBytes; rw [cn.countBits hw]
  intro fuel
  induction fuel with
  | zero => intro inp out outlen s _ _ _; exact Or.inr (Or.inl ⟨rfl, rfl⟩)
  | succ fuel ih =>
    intro inp out outlen s h ho hl
    unfold rsaDecLoop Rsa.decLoop
    dsimp only
    by_cases h0 : inp = []
    · rw [if_pos h0, if_pos h0]
      exact Or.inr (Or.inr (Or.inr ⟨(out.getD [], outlen), (out, outlen), s, rfl, rfl, h, rfl, rfl, hl, fun h => h.elim id fun h => absurd h0 h⟩))
    rw [if_neg h0, if_neg h0, hlen]
    by_cases h1 : inp.length < (N.size + 7) / 8
    · rw [if_pos h1, if_pos h1]
      exact Or.inr (Or.inr (Or.inl ⟨(out, outlen), s, rfl, h, Or.inl rfl⟩))
    rw [if_neg h1, if_neg h1]
    rcases reallocBuf_any h (outlen + (N.size + 7) / 8) with ⟨s1, e1, h1, b1⟩ | ⟨s1, e1, h1⟩
    · rw [bind_ok e1]
      exact Or.inr (Or.inr (Or.inl ⟨(out, outlen), s1, rfl, h1, Or.inr b1⟩))
    rw [bind_ok e1]
    dsimp only
    rw [List.take_of_length_le ho]
    generalize hB : out.getD [] ++ List.replicate (outlen + (N.size + 7) / 8 - (out.getD []).length) (none : Option Byte) = B
    have hBl : B.length = outlen + (N.size + 7) / 8 := by rw [← hB]; simp; omega
    rcases rsaDecBlock_any hw h1 sign hk cn cx cp B (by omega) (inp.take ((N.size + 7) / 8)) with ⟨e2, q⟩ | ⟨e2, q⟩ | ⟨b, s2, e2, h2, q⟩ | ⟨r, s2, v2, e2, h2⟩
    · refine Or.inl ⟨by rw [bind_apply, e2], ?_⟩
      rcases q with q | q
      · left; rw [q]; rfl
      · exact Or.inr q
    · exact Or.inr (Or.inl ⟨by rw [bind_apply, e2], by rw [q]; rfl⟩)
    · refine Or.inr (Or.inr (Or.inl ⟨(some b, outlen), s2, ?_, h2, ?_⟩))
      · rw [bind_ok e2]; rfl
      · rcases q with q | q
        · left; rw [q]; rfl
        · exact Or.inr q
    · rw [bind_ok e2, v2]
      dsimp only [Rsa.Res.bind]
      rw [if_neg (by omega), Int.toNat_natCast]
      have hr : r.length ≤ (N.size + 7) / 8 := by
        unfold Rsa.decryptBlock at v2
        dsimp only at v2
        rw [hlen] at v2
        by_cases hs : (inp.take ((N.size + 7) / 8)).length ≠ (N.size + 7) / 8
        · rw [if_pos hs] at v2; cases v2
        · rw [if_neg hs] at v2
          obtain ⟨m, blk, w1, w2, w3, -⟩ := Rsa.power_block hw cn hk.one cx (inp.take ((N.size + 7) / 8))
          rw [hlen] at w2 w3
          rw [w1] at v2
          dsimp only [Rsa.Res.bind, Rsa.ofOption] at v2
          rw [w2] at v2
          exact rsaUnpad_len (padding := c.padding) w3 v2
      have := ih (inp.drop ((N.size + 7) / 8)) (some (r.map some ++ B.drop r.length)) (outlen + r.length) s2 h2 (by simp; omega) (by simp; omega)
      rcases this with ⟨e3, q⟩ | ⟨e3, q⟩ | ⟨x, s3, e3, h3, q⟩ | ⟨v, x, s3, v3, e3, h3, g1, g2, g4, g3⟩
      · exact Or.inl ⟨e3, q⟩
      · exact Or.inr (Or.inl ⟨e3, q⟩)
      · exact Or.inr (Or.inr (Or.inl ⟨x, s3, e3, h3, q⟩))
      · exact Or.inr (Or.inr (Or.inr ⟨v, x, s3, v3, e3, h3, g1, g2, g4, fun _ => g3 (Or.inl rfl)⟩))

/-- How `encrypt` and `decrypt` end. -/
def FinEnds {β : Type} (K : Ctx) (A : Env) (sp : Nat) (r : Rsa.Res β) (good : β → Buf → Nat → Prop) (run : Out ((Int × Option Buf × Nat) × St)) : Prop :=
  (run = .ub ∧ (r = .ub ∨ K.May)) ∨ (run = .hang ∧ r = .hang) ∨
  (∃ s', run = .ok ((-1, none, 0), s') ∧ At K A sp s' ∧ (r = .fail ∨ Bad K s')) ∨
  (∃ v b len s', r = .ok v ∧ run = .ok ((0, some b, len), s') ∧ At K.more A sp s' ∧ good v b len)

theorem finish_any {β : Type} {r : Rsa.Res β} {good : β → Option Buf × Nat → Prop} {loop : M (Int × Option Buf × Nat)}
    (h : LoopEnds K A sp r good (loop s)) (hs : ∀ v x, good v x → x.1.isSome) :
    FinEnds K A sp r (fun v b len => good v (some b, len)) ((do let x ← loop; rsaFinish x : M _) s) := by
  rcases h with ⟨e, q⟩ | ⟨e, q⟩ | ⟨x, s1, e, h1, q⟩ | ⟨v, x, s1, v1, e, h1, g⟩
  · exact Or.inl ⟨by rw [bind_apply, e], q⟩
  · exact Or.inr (Or.inl ⟨by rw [bind_apply, e], q⟩)
  · refine Or.inr (Or.inr (Or.inl ?_))
    rw [bind_ok e]
    obtain ⟨o, l⟩ := x
    unfold rsaFinish
    rw [if_pos (by simp)]
    cases o with
    | none => exact ⟨s1, rfl, h1, q⟩
    | some b =>
      obtain ⟨s2, e2, h2⟩ := release_more (K := K) h1
      refine ⟨s2, ?_, h2, ?_⟩
      · show (release >>= _) s1 = _
        rw [bind_ok e2]; rfl
      · rcases q with q | q
        · exact Or.inl q
        · cases e2; exact Or.inr q
  · have := hs v x g
    obtain ⟨o, l⟩ := x
    cases o with
    | none => cases this
    | some b =>
      refine Or.inr (Or.inr (Or.inr ⟨v, b, l, s1, v1, ?_, h1, g⟩))
      rw [bind_ok e]; rfl

theorem rsaEncrypt_any (hw : DigitWidth w) (h : At K A sp s) (sign : Bool) (hk : KeyAt w A sp n (if sign then d else e) N X) (cn : NatRep w c.n N)
    (cx : NatRep w (if sign then c.d else c.e) X) (cp : c.padding = padding) (rnd : Nat → Nat → Byte) (inp : List Byte) :
    FinEnds K A sp (Rsa.encrypt w c sign rnd inp) (fun ct b len => b = ct.map some ∧ len = ct.length)
      (rsaEncrypt w sp n e d padding sign rnd inp s) := by
  have hlen : Mpi.countBytes w c.n = (N.size + 7) / 8 := by unfold Mpi.countBytes; rw [cn.countBits hw]
  have e0 : countBytes w n s = .ok ((N.size + 7) / 8, s) := countBytes_shows hw (hk.n _ (h.objs n hk.ns))
  unfold rsaEncrypt Rsa.encrypt
  rw [bind_ok e0]
  dsimp only
  rw [hlen, cp]
  by_cases h0 : inp = []
  · rw [if_pos h0, if_pos h0]; exact Or.inl ⟨rfl, Or.inl rfl⟩
  rw [if_neg h0, if_neg h0]
  generalize (if padding ≠ 0 then ((N.size + 7) / 8 + 2 ^ 64 - 11) % 2 ^ 64 else (N.size + 7) / 8) = bsz
  have hl := encLoop_any (K := K) hw sign hk cn cx cp rnd (inp.length + 1) 0 bsz inp none 0 s h rfl
  have := finish_any hl fun v x g => g.2.2 h0
  rcases this with q | q | q | ⟨v, b, len, s', q1, q2, q3, q4, q5, -⟩
  · exact Or.inl q
  · exact Or.inr (Or.inl q)
  · exact Or.inr (Or.inr (Or.inl q))
  · exact Or.inr (Or.inr (Or.inr ⟨v, b, len, s', q1, q2, q3, by simpa using q4, by simpa using q5⟩))

theorem rsaDecrypt_any (hw : DigitWidth w) (h : At K A sp s) (sign : Bool) (hk : KeyAt w A sp n (if sign then e else d) N X) (cn : NatRep w c.n N)
    (cx : NatRep w (if sign then c.e else c.d) X) (cp : c.padding = padding) (inp : List Byte) :
    FinEnds K A sp (Rsa.decrypt w c sign inp) (fun v b len => v = b.take len ∧ len ≤ b.length)
      (rsaDecrypt w sp n e d padding sign inp s) := by
  have e0 : countBytes w n s = .ok ((N.size + 7) / 8, s) := countBytes_shows hw (hk.n _ (h.objs n hk.ns))
  unfold rsaDecrypt Rsa.decrypt
  rw [bind_ok e0]
  by_cases h0 : inp = []
  · rw [if_pos h0, if_pos h0]; exact Or.inl ⟨rfl, Or.inl rfl⟩
  rw [if_neg h0, if_neg h0]
  have hl := decLoop_any (K := K) hw sign hk cn cx cp (inp.length + 1) inp none 0 s h (by simp) (by simp)
  have := finish_any hl fun v x g => g.2.2.2 (Or.inr h0)
  rw [show (none : Option Buf).getD [] = [] from rfl] at this
  rcases this with ⟨q, r⟩ | ⟨q, r⟩ | ⟨s', q, r, f⟩ | ⟨v, b, len, s', q1, q2, q3, q4, q5, q6, -⟩
  · refine Or.inl ⟨q, ?_⟩
    rcases r with r | r
    · left; rw [r]; rfl
    · exact Or.inr r
  · exact Or.inr (Or.inl ⟨q, by rw [r]; rfl⟩)
  · refine Or.inr (Or.inr (Or.inl ⟨s', q, r, ?_⟩))
    rcases f with f | f
    · left; rw [f]; rfl
    · exact Or.inr f
  · refine Or.inr (Or.inr (Or.inr ⟨b.take len, b, len, s', ?_, q2, q3, rfl, q6⟩))
    rw [q1]
    have q4 : b = v.1 := q4
    have q5 : len = v.2 := q5
    rw [q4, q5]; rfl

/-- How `cry_rsa_verify` ends. -/
theorem rsaVerify_any (hw : DigitWidth w) (h : At K A sp s) (hk : KeyAt w A sp n e N X) (cn : NatRep w c.n N)
    (cx : NatRep w c.e X) (cp : c.padding = padding) (sig msg : List Byte) :
    (rsaVerify w sp n e d padding sig msg s = .ub ∧ (Rsa.verify w c sig msg = .ub ∨ K.May)) ∨
    (rsaVerify w sp n e d padding sig msg s = .hang ∧ Rsa.verify w c sig msg = .hang) ∨
    (∃ s', rsaVerify w sp n e d padding sig msg s = .ok (-1, s') ∧ At K A sp s' ∧ (Rsa.verify w c sig msg = .fail ∨ Bad K s')) ∨
    (∃ s', rsaVerify w sp n e d padding sig msg s = .ok (0, s') ∧ At K A sp s' ∧ Rsa.verify w c sig msg = .ok ()) := by
  have hd := rsaDecrypt_any (padding := padding) (e := e) (d := d) hw h true hk cn cx cp sig
  unfold rsaVerify Rsa.verify
  rcases hd with ⟨q, r⟩ | ⟨q, r⟩ | ⟨s1, q, h1, f⟩ | ⟨v, b, len, s1, r, q, h1, g1, g2⟩
  · refine Or.inl ⟨by rw [bind_apply, q], ?_⟩
    rcases r with r | r
    · left; rw [r]; rfl
    · exact Or.inr r
  · exact Or.inr (Or.inl ⟨by rw [bind_apply, q], by rw [r]; rfl⟩)
  · refine Or.inr (Or.inr (Or.inl ⟨s1, by rw [bind_ok q]; rfl, h1, ?_⟩))
    rcases f with f | f
    · left; rw [f]; rfl
    · exact Or.inr f
  · rw [bind_ok q, r]
    dsimp only [Rsa.Res.bind]
    rw [if_pos rfl, cp]
    have hv : v.length = len := by rw [g1]; simp; omega
    obtain ⟨s2, e2, h2⟩ := release_more (K := K) h1
    have rel : ∀ st : Int, (do
        if (some b).isSome = true then release
        pure st : M Int) s1 = .ok (st, s2) := fun st => by
      show (release >>= _) s1 = _
      rw [bind_ok e2]; rfl
    rw [show ((some b).getD []).take len = v from g1.symm, hv]
    by_cases hc : (padding = 0 ∧ len < msg.length) ∨ (padding ≠ 0 ∧ len ≠ msg.length)
    · rw [if_pos hc, if_pos hc]
      refine Or.inr (Or.inr (Or.inl ⟨s2, ?_, h2, Or.inl rfl⟩))
      exact rel (-1)
    · rw [if_neg hc, if_neg hc]
      cases Rsa.differ v msg with
      | none => exact Or.inl ⟨rfl, Or.inl rfl⟩
      | some t =>
        cases t with
        | true => exact Or.inr (Or.inr (Or.inl ⟨s2, rel (-1), h2, Or.inl rfl⟩))
        | false => exact Or.inr (Or.inr (Or.inr ⟨s2, rel 0, h2, rfl⟩))

end Verif.Mem
