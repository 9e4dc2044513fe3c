import Verif.Lemmas.Mem.At
import Verif.Model.Mem.Mul
import Verif.Lemmas.Mpi.Mul
/-! Rules for calls in the middle of a function, in terms of the integers the objects stand for. -/
namespace Verif.Mem
open Verif.Mpi (Mpi Norm WF val Rep)

variable {w : Nat} {z : Int} {n : Nat} {o : Obj}

/-- The object holds a normalised number of value `z` (zero may carry a sign) with room for `n` digits. -/
def R (w : Nat) (z : Int) (n : Nat) (o : Obj) : Prop := ∃ m, Rep w m z ∧ HoldsC m n o
/-- The object can be read as a normalised number of value `z`. -/
def RS (w : Nat) (z : Int) (o : Obj) : Prop := ∃ m, Rep w m z ∧ o.Reads m
/-- Some number. -/
def AnyR (w : Nat) (o : Obj) : Prop := ∃ z, R w z 0 o

theorem R.rs (h : R w z n o) : RS w z o := by
  obtain ⟨m, h1, h2⟩ := h; exact ⟨m, h1, h2.1.reads⟩
theorem R.weak {n' : Nat} (h : R w z n o) (hn : n' ≤ n) : R w z n' o := by
  obtain ⟨m, h1, h2⟩ := h; exact ⟨m, h1, h2.1, hn.trans h2.2⟩
theorem R.any (h : R w z n o) : AnyR w o := ⟨z, h.weak (Nat.zero_le _)⟩
theorem AnyR.clr (h : AnyR w o) : Null o ∨ ∃ m, o.Holds m := by
  obtain ⟨z, m, -, h, -⟩ := h; exact Or.inr ⟨m, h⟩
theorem V.r (h : V w z n o) : R w z n o := by
  obtain ⟨m, h1, h2, h3⟩ := h; exact ⟨m, ⟨h1.toNorm, h2⟩, h3⟩
theorem shows_rs (h : o.Shows w z) : RS w z o := by
  obtain ⟨m, h1, h2, h3⟩ := h; exact ⟨m, ⟨h1.toNorm, h2⟩, h3⟩
theorem V.rs (h : V w z n o) : RS w z o := h.r.rs
theorem R.v (h : R w z n o) (hz : z ≠ 0) : V w z n o := by
  obtain ⟨m, h1, h2⟩ := h
  refine ⟨m, ⟨h1.1, fun h => ?_⟩, h1.2, h2⟩
  exact absurd (h1.2.symm.trans ((Mpi.toInt_eq_zero_iff (Nat.two_pow_pos w) h1.1).2 h)) hz
theorem Any.r (h : Any w o) : AnyR w o := by
  obtain ⟨z, h⟩ := h; exact ⟨z, h.r⟩

/-! ### Functions without locals -/

theorem addR {sp r x y : Nat} {s : St} {zr zx zy : Int} (hw : 0 < w) (hr : R w zr n (s.obj r)) (hx : RS w zx (s.obj x))
    (hy : RS w zy (s.obj y)) : Leaf sp s r (add (2 ^ w) r x y) (R w (zx + zy) n) (R w zr n) := by
  obtain ⟨mr, r1, r3⟩ := hr
  obtain ⟨mx, x1, x3⟩ := hx
  obtain ⟨my, y1, y3⟩ := hy
  obtain ⟨m, e, hl⟩ := add_run (sp := sp) (two_lt hw) r3 x3 y3 x1.1 y1.1
  obtain ⟨m', e', h'⟩ := Mpi.add_rep hw x1 y1
  rw [e] at e'; cases e'
  exact hl.mono (fun o h => ⟨m, h', h.1⟩) (fun o h => ⟨mr, r1, h⟩)

theorem subR {sp r x y : Nat} {s : St} {zr zx zy : Int} (hw : 0 < w) (hr : R w zr n (s.obj r)) (hx : RS w zx (s.obj x))
    (hy : RS w zy (s.obj y)) : Leaf sp s r (sub (2 ^ w) r x y) (R w (zx - zy) n) (R w zr n) := by
  obtain ⟨mr, r1, r3⟩ := hr
  obtain ⟨mx, x1, x3⟩ := hx
  obtain ⟨my, y1, y3⟩ := hy
  obtain ⟨m, e, hl⟩ := sub_run (sp := sp) (two_lt hw) r3 x3 y3 x1.1 y1.1
  obtain ⟨m', e', h'⟩ := Mpi.sub_rep hw x1 y1
  rw [e] at e'; cases e'
  exact hl.mono (fun o h => ⟨m, h', h.1⟩) (fun o h => ⟨mr, r1, h⟩)

theorem shldR {sp a : Nat} {s : St} (hw : 0 < w) (ha : R w z n (s.obj a)) (k : Nat) :
    Leaf sp s a (shld a k) (R w (z * ((2 ^ w) ^ k : Nat)) n) (R w z n) := by
  obtain ⟨m, r1, r3⟩ := ha
  exact (shld_run r3 k).mono (fun o h => ⟨_, Mpi.shld_rep hw r1 k, h⟩) (fun o h => ⟨m, r1, h⟩)

theorem shlR {sp c a : Nat} {s : St} {zc za : Int} (hw : 0 < w) (hc : R w zc n (s.obj c)) (ha : RS w za (s.obj a)) (k : Nat)
    (hsp : a < sp) : Leaf sp s c (shl w c a k) (R w (za * 2 ^ k) n) (fun o => ∃ z, R w z n o) := by
  obtain ⟨mc, c1, c3⟩ := hc
  obtain ⟨m, r1, r3⟩ := ha
  refine (shl_run c3 r3 hw k hsp).mono (fun o h => ⟨_, Mpi.shl_rep hw r1 k, h⟩) (fun o h => ?_)
  rcases h with h | h
  · exact ⟨zc, mc, c1, h⟩
  · exact ⟨za, m, r1, h⟩

theorem shrR {sp c a : Nat} {s : St} {zc za : Int} (hw : 0 < w) (hc : R w zc n (s.obj c)) (ha : RS w za (s.obj a)) (k : Nat)
    (hsp : a < sp) : Leaf sp s c (shr w c a k) (R w (Int.tdiv za ((2 ^ k : Nat) : Int)) n) (R w zc n) := by
  obtain ⟨mc, c1, c3⟩ := hc
  obtain ⟨m, r1, r3⟩ := ha
  exact (shr_run c3 r3 k hsp).mono (fun o h => ⟨_, Mpi.shr_rep hw r1 k, h⟩) (fun o h => ⟨mc, c1, h⟩)

theorem shrdR {sp a : Nat} {s : St} (ha : R w z n (s.obj a)) (k : Nat) :
    Leaf sp s a (shrd a k) (R w (Int.tdiv z (((2 ^ w) ^ k : Nat) : Int)) n) (R w z n) := by
  obtain ⟨m, r1, r3⟩ := ha
  obtain ⟨s', e1, e2, e3⟩ := shrd_run (sp := sp) r3 k
  exact ⟨0, s', e1, e2, Or.inl ⟨rfl, _, Mpi.shrd_rep r1 k, e3⟩⟩

theorem copyR {sp d x : Nat} {s : St} {zd zx : Int} (hd : R w zd n (s.obj d)) (hx : RS w zx (s.obj x)) :
    Leaf sp s d (copy d x) (R w zx n) (R w zd n) := by
  obtain ⟨mr, r1, r3⟩ := hd
  obtain ⟨mx, x1, x3⟩ := hx
  refine (copy_any r3 x3 (fun h => ?_)).mono (fun o h => ⟨mx, x1, h⟩) (fun o h => ⟨mr, r1, h⟩)
  subst h; exact same_num r3.1.reads x3

theorem zeroR {sp r : Nat} {s : St} (hr : R w z n (s.obj r)) (bad : Obj → Prop) :
    Leaf sp s r (do zero r; pure 0) (V w 0 n) bad := by
  obtain ⟨m, r1, r3⟩ := hr
  exact (zero_leaf r3 bad).mono (fun o h => ⟨_, ⟨Mpi.norm_zero _ _, fun _ => rfl⟩, rfl, h⟩) (fun _ h => h)

/-- `mod_2e` for whole digits. -/
theorem modDigits_run {sp : Nat} {s : St} {r a : Nat} {mr m : Mpi} {n : Nat} (hr : HoldsC mr n (s.obj r))
    (ha : (s.obj a).Reads m) (k : Nat) (hsp : a < sp) :
    Leaf sp s r (modDigits r a k) (HoldsC (Mpi.modDigits m k) n) (HoldsC mr n) := by
  unfold modDigits Mpi.modDigits
  by_cases hk : k = 0
  · rw [if_pos hk, if_pos hk]; exact zero_leaf hr _
  · rw [if_neg hk, if_neg hk]
    have key := copy_any (sp := sp) hr ha (fun h => by subst h; exact same_num hr.1.reads ha)
    obtain ⟨st, s1, h1, h2, h3⟩ := key
    rcases h3 with ⟨rfl, h⟩ | ⟨rfl, hf, h⟩
    · have ha1 : (s1.obj a).Reads m := by
        by_cases hac : a = r
        · subst hac; exact h.1.reads
        · rw [h2.frame a hsp hac]; exact ha
      obtain ⟨aa, ha1, ha2⟩ := ha1
      unfold Leaf
      rw [chk_ok h1, bind_ok (hdr_ok ha1)]
      dsimp only
      by_cases hl : k ≥ m.digs.length
      · rw [if_pos hl, if_pos hl]
        exact ⟨0, s1, rfl, h2, Or.inl ⟨rfl, h⟩⟩
      · rw [if_neg hl, if_neg hl, bind_ok (hdr_ok h.1.1)]
        dsimp only
        have hlen := h.1.len
        have hl1 : (over (s1.obj r).cells k (List.replicate (m.digs.length - k) 0)).length = (s1.obj r).cells.length :=
          over_length (by simp; omega)
        rw [bind_ok (zeroLoop_ok r _ (m.digs.length - k) k s1 h.1.1 (by omega))]
        have hz : (over (s1.obj r).cells k (List.replicate (m.digs.length - k) 0))[k]? = some (some 0) := by
          unfold over
          rw [List.append_assoc, List.getElem?_append_right (by simp),
            List.length_take, Nat.min_eq_left (by omega), Nat.sub_self,
            List.getElem?_append_left (by simp; omega), List.map_replicate, List.getElem?_replicate, if_pos (by omega)]
        rw [bind_ok (rd_ok (d := 0) (by rw [upd_obj_same, cells_upd hl1]; exact hz)),
          bind_ok (wr_ok (i := k) (by rw [upd_obj_same]; rfl) 0 (by rw [upd_obj_same, cells_upd hl1, hl1]; omega))]
        simp only [upd_upd, upd_obj_same, cells_upd hl1]
        have hset : (over (s1.obj r).cells k (List.replicate (m.digs.length - k) 0)).set k (some 0) =
            over (s1.obj r).cells k (List.replicate (m.digs.length - k) 0) := by
          apply List.ext_getElem?
          intro i
          by_cases hi : i = k
          · subst hi
            rw [hz, List.getElem?_set_self (by rw [hl1]; omega)]
          · rw [List.getElem?_set_ne (Ne.symm hi)]
        rw [hset]
        have hpre : (m.digs.take k ++ List.replicate (m.digs.length - k) 0).map some <+:
            over (s1.obj r).cells k (List.replicate (m.digs.length - k) 0) := by
          unfold over
          obtain ⟨t, ht⟩ := h.1.2.1
          rw [← ht, List.map_append, List.take_append_of_le_length (by simp; omega), List.map_take]
          exact List.prefix_append _ _
        have hdl : (m.digs.take k ++ List.replicate (m.digs.length - k) 0).length = m.digs.length := by simp; omega
        have hH : ((s1.upd r ⟨m.neg, m.digs.length, (s1.obj r).cells.length⟩
            (over (s1.obj r).cells k (List.replicate (m.digs.length - k) 0))).obj r).Holds
            ⟨m.neg, m.digs.take k ++ List.replicate (m.digs.length - k) 0⟩ := by
          rw [upd_obj_same]
          exact holds_len_upd h.1 hl1 hpre (by rw [hdl])
        obtain ⟨s4, e4, st4, h4, l4⟩ := adjust_run (sp := sp) hH
        refine ⟨0, s4, by rw [bind_ok e4]; rfl, (h2.trans (Step.upd _ _ _ _ _)).trans st4, Or.inl ⟨rfl, ?_, ?_⟩⟩
        · have : Mpi.adjust (m.digs.take k ++ List.replicate (m.digs.length - k) 0) = Mpi.adjust (m.digs.take k) := by
            generalize m.digs.length - k = j
            induction j with
            | zero => simp
            | succ j ih =>
              rw [List.replicate_succ', ← List.append_assoc, Mpi.adjust_concat, if_pos rfl, ih]
          rw [this] at h4; exact h4
        · rw [l4, upd_obj_same, cells_upd hl1, hl1]; exact h.2
    · exact ⟨-1, s1, chk_fail h1 (by decide), h2, Or.inr ⟨rfl, hf, h⟩⟩

theorem modR {sp r a : Nat} {s : St} {zr za : Int} (hr : R w zr n (s.obj r)) (ha : RS w za (s.obj a)) (k : Nat) (hsp : a < sp) :
    Leaf sp s r (modDigits r a k) (R w (Int.tmod za (((2 ^ w) ^ k : Nat) : Int)) n) (R w zr n) := by
  obtain ⟨mr, r1, r3⟩ := hr
  obtain ⟨m, x1, x3⟩ := ha
  exact (modDigits_run r3 x3 k hsp).mono (fun o h => ⟨_, Mpi.modDigits_rep x1 k, h⟩) (fun o h => ⟨mr, r1, h⟩)

/-! ### Rules -/

section
variable {K : Ctx} {E G B : Env} {sp : Nat} {s : St} {k : M Int} {r x y : Nat} {zr zx zy : Int}

theorem st_add (hw : 0 < w) (h : At K E sp s) (hle : Le sp E B) (hr : ∀ o, E r o → R w zr n o) (hx : ∀ o, E x o → RS w zx o)
    (hy : ∀ o, E y o → RS w zy o) (hrs : r < sp) (hxs : x < sp) (hys : y < sp) (hB : ∀ o, AnyR w o → B r o)
    (hk : ∀ s', At K (Function.update E r (R w (zx + zy) n)) sp s' → Le sp (Function.update E r (R w (zx + zy) n)) B →
      WP k (Res K sp G B) s') : WP (chk (add (2 ^ w) r x y) k) (Res K sp G B) s :=
  chk_leaf h hle hrs (addR hw (hr _ (h.objs _ hrs)) (hx _ (h.objs _ hxs)) (hy _ (h.objs _ hys)))
    (fun o ho => hB o ho.any) (fun o ho => hB o ho.any) hk

theorem st_sub (hw : 0 < w) (h : At K E sp s) (hle : Le sp E B) (hr : ∀ o, E r o → R w zr n o) (hx : ∀ o, E x o → RS w zx o)
    (hy : ∀ o, E y o → RS w zy o) (hrs : r < sp) (hxs : x < sp) (hys : y < sp) (hB : ∀ o, AnyR w o → B r o)
    (hk : ∀ s', At K (Function.update E r (R w (zx - zy) n)) sp s' → Le sp (Function.update E r (R w (zx - zy) n)) B →
      WP k (Res K sp G B) s') : WP (chk (sub (2 ^ w) r x y) k) (Res K sp G B) s :=
  chk_leaf h hle hrs (subR hw (hr _ (h.objs _ hrs)) (hx _ (h.objs _ hxs)) (hy _ (h.objs _ hys)))
    (fun o ho => hB o ho.any) (fun o ho => hB o ho.any) hk

theorem st_shld (hw : 0 < w) (h : At K E sp s) (hle : Le sp E B) (hr : ∀ o, E r o → R w zr n o) (hrs : r < sp)
    (hB : ∀ o, AnyR w o → B r o) {d : Nat}
    (hk : ∀ s', At K (Function.update E r (R w (zr * ((2 ^ w) ^ d : Nat)) n)) sp s' →
      Le sp (Function.update E r (R w (zr * ((2 ^ w) ^ d : Nat)) n)) B → WP k (Res K sp G B) s') :
    WP (chk (shld r d) k) (Res K sp G B) s :=
  chk_leaf h hle hrs (shldR hw (hr _ (h.objs _ hrs)) d) (fun o ho => hB o ho.any) (fun o ho => hB o ho.any) hk

theorem st_shl (hw : 0 < w) (h : At K E sp s) (hle : Le sp E B) (hr : ∀ o, E r o → R w zr n o) (hx : ∀ o, E x o → RS w zx o)
    (hrs : r < sp) (hxs : x < sp) (hB : ∀ o, AnyR w o → B r o) {d : Nat}
    (hk : ∀ s', At K (Function.update E r (R w (zx * 2 ^ d) n)) sp s' → Le sp (Function.update E r (R w (zx * 2 ^ d) n)) B →
      WP k (Res K sp G B) s') : WP (chk (shl w r x d) k) (Res K sp G B) s :=
  chk_leaf h hle hrs (shlR hw (hr _ (h.objs _ hrs)) (hx _ (h.objs _ hxs)) d hxs)
    (fun o ho => by obtain ⟨z, ho⟩ := ho; exact hB o ho.any) (fun o ho => hB o ho.any) hk

theorem st_shr (hw : 0 < w) (h : At K E sp s) (hle : Le sp E B) (hr : ∀ o, E r o → R w zr n o) (hx : ∀ o, E x o → RS w zx o)
    (hrs : r < sp) (hxs : x < sp) (hB : ∀ o, AnyR w o → B r o) {d : Nat}
    (hk : ∀ s', At K (Function.update E r (R w (Int.tdiv zx ((2 ^ d : Nat) : Int)) n)) sp s' →
      Le sp (Function.update E r (R w (Int.tdiv zx ((2 ^ d : Nat) : Int)) n)) B →
      WP k (Res K sp G B) s') : WP (chk (shr w r x d) k) (Res K sp G B) s :=
  chk_leaf h hle hrs (shrR hw (hr _ (h.objs _ hrs)) (hx _ (h.objs _ hxs)) d hxs)
    (fun o ho => hB o ho.any) (fun o ho => hB o ho.any) hk

theorem st_shrd (h : At K E sp s) (hle : Le sp E B) (hr : ∀ o, E r o → R w zr n o) (hrs : r < sp)
    (hB : ∀ o, AnyR w o → B r o) {d : Nat}
    (hk : ∀ s', At K (Function.update E r (R w (Int.tdiv zr (((2 ^ w) ^ d : Nat) : Int)) n)) sp s' →
      Le sp (Function.update E r (R w (Int.tdiv zr (((2 ^ w) ^ d : Nat) : Int)) n)) B → WP k (Res K sp G B) s') :
    WP (chk (shrd r d) k) (Res K sp G B) s :=
  chk_leaf h hle hrs (shrdR (hr _ (h.objs _ hrs)) d) (fun o ho => hB o ho.any) (fun o ho => hB o ho.any) hk

theorem st_copy (h : At K E sp s) (hle : Le sp E B) (hr : ∀ o, E r o → R w zr n o) (hx : ∀ o, E x o → RS w zx o)
    (hrs : r < sp) (hxs : x < sp) (hB : ∀ o, AnyR w o → B r o)
    (hk : ∀ s', At K (Function.update E r (R w zx n)) sp s' → Le sp (Function.update E r (R w zx n)) B →
      WP k (Res K sp G B) s') : WP (chk (copy r x) k) (Res K sp G B) s :=
  chk_leaf h hle hrs (copyR (hr _ (h.objs _ hrs)) (hx _ (h.objs _ hxs)))
    (fun o ho => hB o ho.any) (fun o ho => hB o ho.any) hk

theorem st_mod (h : At K E sp s) (hle : Le sp E B) (hr : ∀ o, E r o → R w zr n o) (hx : ∀ o, E x o → RS w zx o)
    (hrs : r < sp) (hxs : x < sp) (hB : ∀ o, AnyR w o → B r o) {d : Nat}
    (hk : ∀ s', At K (Function.update E r (R w (Int.tmod zx (((2 ^ w) ^ d : Nat) : Int)) n)) sp s' →
      Le sp (Function.update E r (R w (Int.tmod zx (((2 ^ w) ^ d : Nat) : Int)) n)) B →
      WP k (Res K sp G B) s') : WP (chk (modDigits r x d) k) (Res K sp G B) s :=
  chk_leaf h hle hrs (modR (hr _ (h.objs _ hrs)) (hx _ (h.objs _ hxs)) d hxs)
    (fun o ho => hB o ho.any) (fun o ho => hB o ho.any) hk

/-- A call of a function that itself has locals, with destination `r`. -/
theorem st_call {c : M Int} {P Q : Obj → Prop} (h : WP c (Res K sp (Function.update E r P) (Function.update E r Q)) s)
    (hle : Le sp E B) (hP : ∀ o, P o → B r o) (hQ : ∀ o, Q o → B r o)
    (hk : ∀ s', At K (Function.update E r P) sp s' → Le sp (Function.update E r P) B → WP k (Res K sp G B) s') :
    WP (chk c k) (Res K sp G B) s :=
  chk_res h (hle.update hQ) fun s' h' => hk s' h' (hle.update hP)

end

end Verif.Mem
