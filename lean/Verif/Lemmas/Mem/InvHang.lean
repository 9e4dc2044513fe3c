import Verif.Lemmas.Mem.Inv
/-! `cry_mpi_inv` when memory is exhausted for good. -/
namespace Verif.Mem
open Verif.Mpi (Mpi Norm WF val Rep DigitWidth)

variable {w : Nat}

/-- A call that changes nothing the caller can see. -/
structure Idle (S : Nat) (s s' : St) : Prop where
  frame : ∀ v, v < S → s'.obj v = s.obj v
  fails : s'.fails = s.fails
  tick : s.tick ≤ s'.tick

/-- All later allocation requests fail. -/
def Exhausted (s : St) : Prop := ∀ k, s.tick ≤ k → s.fails k = true

theorem Exhausted.mono {s s' : St} (h : Exhausted s) (hf : s'.fails = s.fails) (ht : s.tick ≤ s'.tick) : Exhausted s' :=
  fun k hk => by rw [hf]; exact h k (ht.trans hk)

theorem used_ne {s : St} {a : Nat} {z : Int} {n : Nat} (h : V w z n (s.obj a)) (hz : z ≠ 0) : ∃ hd, (s.obj a).hdr = some hd ∧ hd.used ≠ 0 := by
  obtain ⟨m, m1, m2, m3⟩ := h
  refine ⟨_, m3.1.1, fun e => hz ?_⟩
  rw [← m2]
  exact (Mpi.toInt_eq_zero_iff (Nat.two_pow_pos w) m1.toNorm).2 (List.eq_nil_of_length_eq_zero e)

theorem V.not_neg {o : Obj} {z : Int} {n : Nat} (h : V w z n o) (hz : 0 ≤ z) : ∃ hd, o.hdr = some hd ∧ hd.neg = false := by
  obtain ⟨m, m1, m2, m3⟩ := h
  refine ⟨_, m3.1.1, ?_⟩
  cases e : m.neg with
  | false => rfl
  | true =>
    have h1 : (0 : Int) ≤ val (2 ^ w) m.digs := by positivity
    have h2 : Mpi.toInt (2 ^ w) m = -(val (2 ^ w) m.digs : Int) := by simp [Mpi.Mpi.toInt, e]
    have h3 : m.digs = [] := (Mpi.toInt_eq_zero_iff (Nat.two_pow_pos w) m1.toNorm).1 (by omega)
    rw [m1.zero_nonneg h3] at e; cases e

/-- The division fails at once. -/
theorem divAbs_exhausted {S a b : Nat} {s : St} {rq rr : Option Nat} {za zb : Int} (hx : Exhausted s) (ha : V w za 0 (s.obj a)) (hb : V w zb 0 (s.obj b))
    (has : a < S) (hbs : b < S) (hb0 : zb ≠ 0) (hab : |zb| ≤ |za|) :
    ∃ s', divAbs w S rq rr a b s = .ok (-1, s') ∧ Idle S s s' := by
  unfold divAbs
  generalize hs1 : ({ s with obj := fun p => if S ≤ p ∧ p < S + 5 then Obj.fresh else s.obj p } : St) = s1
  have e1 : decl S 5 s = .ok ((), s1) := by rw [← hs1]; rfl
  have hlo : ∀ v, v < S → s1.obj v = s.obj v := fun v hv => by rw [← hs1]; exact if_neg (by omega)
  have hf : s1.fails = s.fails := by rw [← hs1]
  have ht : s1.tick = s.tick := by rw [← hs1]
  rw [bind_ok e1]
  obtain ⟨hd, h1, h2⟩ := used_ne (s := s1) (by rw [hlo b hbs]; exact hb) hb0
  rw [bind_ok (hdr_ok h1), if_neg h2]
  rw [bind_ok (cmpAbs_eval (s := s1) (by rw [hlo a has]; exact ha.shows) (by rw [hlo b hbs]; exact hb.shows))]
  rw [if_neg (by split_ifs <;> omega)]
  obtain ⟨ma, a1, a2, a3⟩ := ha
  rw [bind_ok (hdr_ok (s := s1) (by rw [hlo a has]; exact a3.1.1))]
  unfold within chk
  have hreq : request 1 s1 = .ok (false, { s1 with tick := s1.tick + 1 }) := by
    unfold request
    rw [if_pos (by rw [hf, ht]; exact hx _ (le_refl _))]
  refine ⟨({ s1 with tick := s1.tick + 1 } : St).set S { s1.obj S with data := .null }, ?_, ⟨fun v hv => ?_, hf, by show _ ≤ s1.tick + 1; omega⟩⟩
  · have hi : initSize S (ma.digs.length + 2) s1 = .ok (-1, ({ s1 with tick := s1.tick + 1 } : St).set S { s1.obj S with data := .null }) := by
      unfold initSize
      rw [if_pos (by omega), bind_ok hreq]
      rfl
    rw [bind_ok hi, if_pos (by decide)]
    rfl
  · show (if v = S then _ else s1.obj v) = _
    rw [if_neg (by omega)]; exact hlo v hv

theorem div_exhausted {S a b : Nat} {s : St} {rq rr : Option Nat} {za zb : Int} (hx : Exhausted s) (ha : V w za 0 (s.obj a)) (hb : V w zb 0 (s.obj b))
    (has : a < S) (hbs : b < S) (hb0 : zb ≠ 0) (hab : |zb| ≤ |za|) :
    ∃ s', div w S rq rr a b s = .ok (-1, s') ∧ Idle S s s' := by
  obtain ⟨s', e, h⟩ := divAbs_exhausted (rq := rq) (rr := rr) hx ha hb has hbs hb0 hab
  refine ⟨s', ?_, h⟩
  unfold div
  obtain ⟨ma, a1, a2, a3⟩ := ha
  obtain ⟨mb, b1, b2, b3⟩ := hb
  rw [bind_ok (hdr_ok a3.1.1), bind_ok (hdr_ok b3.1.1)]
  unfold chk
  rw [bind_ok e, if_pos (by decide)]
  rfl

/-- The division of a smaller number, in place, needs no memory. -/
theorem div_small {S a b q : Nat} {s : St} {za zb zq : Int} (ha : V w za 0 (s.obj a)) (hb : V w zb 0 (s.obj b)) (hq : V w zq 0 (s.obj q))
    (has : a < S) (hbs : b < S) (hqs : q < S) (ha0 : 0 ≤ za) (hab : za < zb) :
    ∃ s', div w S (some q) (some a) a b s = .ok (0, s') ∧ Step S s s' q ∧ V w 0 0 (s'.obj q) := by
  have key : ∃ s', divAbs w S (some q) (some a) a b s = .ok (0, s') ∧ Step S s s' q ∧ V w 0 0 (s'.obj q) := by
    unfold divAbs
    generalize hs1 : ({ s with obj := fun p => if S ≤ p ∧ p < S + 5 then Obj.fresh else s.obj p } : St) = s1
    have e1 : decl S 5 s = .ok ((), s1) := by rw [← hs1]; rfl
    have hlo : ∀ v, v < S → s1.obj v = s.obj v := fun v hv => by rw [← hs1]; exact if_neg (by omega)
    have hf : s1.fails = s.fails := by rw [← hs1]
    have ht : s1.tick = s.tick := by rw [← hs1]
    have hl : s1.live = s.live := by rw [← hs1]
    rw [bind_ok e1]
    obtain ⟨hd, h1, h2⟩ := used_ne (s := s1) (by rw [hlo b hbs]; exact hb) (by omega)
    rw [bind_ok (hdr_ok h1), if_neg h2]
    rw [bind_ok (cmpAbs_eval (s := s1) (by rw [hlo a has]; exact ha.shows) (by rw [hlo b hbs]; exact hb.shows))]
    rw [abs_of_nonneg ha0, abs_of_nonneg (by omega), if_pos hab, if_pos (by decide)]
    have hc : copy a a s1 = .ok (0, s1) := by unfold copy; rw [if_pos rfl]; rfl
    obtain ⟨s2, e2, t2, h2⟩ := zero_run (S := S) (s := s1) (v := q) (by rw [hlo q hqs]; exact hq)
    refine ⟨s2, ?_, ⟨fun v hv hr => (t2.frame v hv hr).trans (hlo v hv), by have := t2.live; rw [hlo q hqs, hl] at this; exact this, t2.fails.trans hf,
      by have := t2.tick; omega⟩, h2⟩
    rw [bind_ok hc]
    dsimp only
    rw [bind_ok e2]
    rfl
  obtain ⟨s', e, h⟩ := key
  refine ⟨s', ?_, h⟩
  unfold div
  obtain ⟨hda, a1, a2⟩ := ha.not_neg ha0
  obtain ⟨hdb, b1, b2⟩ := hb.not_neg (by omega)
  rw [bind_ok (hdr_ok a1), bind_ok (hdr_ok b1)]
  unfold chk
  rw [bind_ok e, if_neg (by decide), a2, b2, if_neg (by decide)]
  rfl

theorem mul_zero_inplace {S q y : Nat} {s : St} (hq : V w 0 0 (s.obj q)) (hy : Any w (s.obj y)) (hqs : q < S) (hys : y < S) :
    ∃ s', mul w S q q y s = .ok (0, s') ∧ Step S s s' q ∧ V w 0 0 (s'.obj q) := by
  obtain ⟨mq, q1, q2, q3⟩ := id hq
  have h0 : mq.digs = [] := (Mpi.toInt_eq_zero_iff (Nat.two_pow_pos w) q1.toNorm).1 q2
  obtain ⟨zy, my, y1, y2, y3⟩ := hy
  have hq' : ∀ {s' : St}, s'.obj q = s.obj q → hdr q s' = .ok (⟨mq.neg, mq.digs.length, (s.obj q).cells.length⟩, s') := fun e => hdr_ok (by rw [e]; exact q3.1.1)
  have hy' : ∀ {s' : St}, s'.obj y = s.obj y → hdr y s' = .ok (⟨my.neg, my.digs.length, (s.obj y).cells.length⟩, s') := fun e => hdr_ok (by rw [e]; exact y3.1.1)
  unfold mul
  rw [bind_ok (hq' rfl), bind_ok (hy' rfl)]
  unfold mulWith
  rw [bind_ok (hq' rfl), bind_ok (hy' rfl)]
  rw [show min mq.digs.length my.digs.length = 0 by rw [h0]; simp]
  rw [mulAbs, ]
  generalize hs1 : ({ s with obj := fun p => if S ≤ p ∧ p < S + 1 then Obj.fresh else s.obj p } : St) = s1
  have e1 : decl S 1 s = .ok ((), s1) := by rw [← hs1]; rfl
  have hlo : ∀ v, v < S → s1.obj v = s.obj v := fun v hv => by rw [← hs1]; exact if_neg (by omega)
  have hf : s1.fails = s.fails := by rw [← hs1]
  have ht : s1.tick = s.tick := by rw [← hs1]
  have hl : s1.live = s.live := by rw [← hs1]
  obtain ⟨s2, e2, t2, h2⟩ := zero_run (S := S) (s := s1) (v := q) (by rw [hlo q hqs]; exact hq)
  have hrun : mulComba w S q q y s = .ok (0, s2) := by
    unfold mulComba
    rw [bind_ok e1, bind_ok (hq' (hlo q hqs)), bind_ok (hy' (hlo y hys)), if_pos (Or.inl (by rw [h0]; rfl)), bind_ok e2]
    rfl
  have hrun' : (do
      let hx ← hdr q
      let hy ← hdr y
      if min hx.used hy.used > 300 then mulToom3 w (mulWith (mulAbs w 0)) S q q y
      else if min hx.used hy.used > 64 then mulKaratsuba w (mulAbs w 0) S q q y
      else mulComba w S q q y) s = .ok (0, s2) := by
    rw [bind_ok (hq' rfl), bind_ok (hy' rfl)]
    dsimp only
    rw [show min mq.digs.length my.digs.length = 0 by rw [h0]; simp, if_neg (by decide), if_neg (by decide)]
    exact hrun
  refine ⟨s2, ?_, ⟨fun v hv hr => (t2.frame v hv hr).trans (hlo v hv), by have := t2.live; rw [hlo q hqs, hl] at this; exact this, t2.fails.trans hf,
      by have := t2.tick; omega⟩, h2⟩
  rw [bind_ok hrun', if_pos rfl]
  obtain ⟨m2, n1, n2, n3⟩ := h2
  have h02 : m2.digs = [] := (Mpi.toInt_eq_zero_iff (Nat.two_pow_pos w) n1.toNorm).1 n2
  rw [bind_ok (hdr_ok n3.1.1), if_neg (by rw [h02]; simp)]
  rfl

/-- Nothing but `r` has changed among the objects below `S`. -/
structure Chg (S : Nat) (s s' : St) (r : Nat) : Prop where
  frame : ∀ v, v < S → v ≠ r → s'.obj v = s.obj v
  fails : s'.fails = s.fails
  tick : s.tick ≤ s'.tick

theorem Step.chg {S : Nat} {s s' : St} {r : Nat} (h : Step S s s' r) : Chg S s s' r := ⟨h.frame, h.fails, h.tick⟩
theorem Chg.ex {S : Nat} {s s' : St} {r : Nat} (h : Chg S s s' r) (hx : Exhausted s) : Exhausted s' := hx.mono h.fails h.tick

/-- The loop never ends. -/
theorem invLoop_exhausted (hw : DigitWidth w) {sp : Nat} {k : M Int} : ∀ (fuel : Nat) (s : St) (R0 R1 : Int), Exhausted s → 0 < R0 → 0 < R1 →
    V w R0 0 (s.obj sp) → V w R1 0 (s.obj (sp + 1)) → Any w (s.obj (sp + 2)) → Any w (s.obj (sp + 3)) → V w 0 0 (s.obj (sp + 4)) →
    invLoop w (sp + 5) sp (sp + 1) (sp + 2) (sp + 3) (sp + 4) k fuel s = .hang
  | 0, _, _, _, _, _, _, _, _, _, _, _ => rfl
  | fuel + 1, s, R0, R1, hx, p0, p1, v0, v1, v2, v3, v4 => by
    have hw0 : 0 < w := by have := hw.pos; omega
    obtain ⟨hd, h1, h2⟩ := used_ne (s := s) v1 (by omega)
    rw [invLoop, bind_ok (hdr_ok h1), if_neg h2]
    have hdiv : ∃ st s', div w (sp + 5) (some (sp + 4)) (some sp) sp (sp + 1) s = .ok (st, s') ∧ Chg (sp + 5) s s' (sp + 4) ∧ V w 0 0 (s'.obj (sp + 4)) := by
      by_cases hlt : R0 < R1
      · obtain ⟨s', e, t, h⟩ := div_small (S := sp + 5) v0 v1 v4 (by omega) (by omega) (by omega) p0.le hlt
        exact ⟨0, s', e, t.chg, h⟩
      · obtain ⟨s', e, h⟩ := div_exhausted (S := sp + 5) (rq := some (sp + 4)) (rr := some sp) hx v0 v1 (by omega) (by omega) (by omega)
          (by rw [abs_of_pos p0, abs_of_pos p1]; omega)
        exact ⟨-1, s', e, ⟨fun v hv _ => h.frame v hv, h.fails, h.tick⟩, by rw [h.frame _ (by omega)]; exact v4⟩
    obtain ⟨st1, s1, e1, t1, q1⟩ := hdiv
    rw [ign_run e1]
    obtain ⟨s2, e2, -, f2, k2, o2⟩ := @swap_run sp (sp + 1) s1
    rw [bind_ok e2]
    have o2' : ∀ v, v ≠ sp → v ≠ sp + 1 → s2.obj v = s1.obj v := fun v h h' => by
      rw [o2]; show s1.obj _ = _; rw [Equiv.swap_apply_of_ne_of_ne h h']
    have w0 : V w R1 0 (s2.obj sp) := by
      rw [o2]; show V w R1 0 (s1.obj _); rw [Equiv.swap_apply_left, t1.frame _ (by omega) (by omega)]; exact v1
    have w1 : V w R0 0 (s2.obj (sp + 1)) := by
      rw [o2]; show V w R0 0 (s1.obj _); rw [Equiv.swap_apply_right, t1.frame _ (by omega) (by omega)]; exact v0
    have w2 : Any w (s2.obj (sp + 2)) := by rw [o2' _ (by omega) (by omega), t1.frame _ (by omega) (by omega)]; exact v2
    have w3 : Any w (s2.obj (sp + 3)) := by rw [o2' _ (by omega) (by omega), t1.frame _ (by omega) (by omega)]; exact v3
    have w4 : V w 0 0 (s2.obj (sp + 4)) := by rw [o2' _ (by omega) (by omega)]; exact q1
    have x2 : Exhausted s2 := (t1.ex hx).mono f2 (by omega)
    obtain ⟨s3, e3, t3, q3⟩ := mul_zero_inplace (S := sp + 5) w4 w3 (by omega) (by omega)
    rw [ign_run e3]
    have y2 : Any w (s3.obj (sp + 2)) := by rw [t3.frame _ (by omega) (by omega)]; exact w2
    obtain ⟨z2, y2⟩ := y2
    obtain ⟨st4, s4, e4, t4, h4⟩ := sub_leaf (sp := sp + 5) hw0 y2 y2.shows q3.shows
    have u2 : Any w (s4.obj (sp + 2)) := by
      rcases h4 with ⟨-, h⟩ | ⟨-, -, h⟩ <;> exact ⟨_, h⟩
    rw [ign_run e4]
    have x4 : Exhausted s4 := t4.chg.ex (t3.chg.ex x2)
    have k4 : ∀ v, v < sp + 5 → v ≠ sp + 2 → v ≠ sp + 4 → s4.obj v = s2.obj v := fun v h h' h'' => (t4.frame v h h').trans (t3.frame v h h'')
    obtain ⟨s5, e5, -, f5, k5, o5⟩ := @swap_run (sp + 2) (sp + 3) s4
    rw [bind_ok e5]
    have o5' : ∀ v, v ≠ sp + 2 → v ≠ sp + 3 → s5.obj v = s4.obj v := fun v h h' => by
      rw [o5]; show s4.obj _ = _; rw [Equiv.swap_apply_of_ne_of_ne h h']
    have u2' : Any w (s5.obj (sp + 2)) := by
      rw [o5]; show Any w (s4.obj _); rw [Equiv.swap_apply_left, k4 _ (by omega) (by omega) (by omega)]; exact w3
    have u3' : Any w (s5.obj (sp + 3)) := by
      rw [o5]; show Any w (s4.obj _); rw [Equiv.swap_apply_right]; exact u2
    have x5 : Exhausted s5 := x4.mono f5 (by omega)
    obtain ⟨s6, e6, t6, q6⟩ := zero_run (S := sp + 5) (s := s5) (v := sp + 4) (z := 0) (n := 0)
      (by rw [o5' _ (by omega) (by omega), t4.frame _ (by omega) (by omega)]; exact q3)
    rw [bind_ok e6]
    have k6 : ∀ v, v < sp + 2 → s6.obj v = s2.obj v := fun v h => by
      rw [t6.frame v (by omega) (by omega), o5' v (by omega) (by omega), k4 v (by omega) (by omega) (by omega)]
    exact invLoop_exhausted hw fuel s6 R1 R0 (t6.chg.ex x5) p1 p0 (by rw [k6 _ (by omega)]; exact w0) (by rw [k6 _ (by omega)]; exact w1)
      (by rw [t6.frame _ (by omega) (by omega)]; exact u2') (by rw [t6.frame _ (by omega) (by omega)]; exact u3') q6

/-- A copy for which there is room needs no memory. -/
theorem copy_fits {S d x : Nat} {s : St} {zd zx : Int} (hd : V w zd 8 (s.obj d)) (hx : (s.obj x).Shows w zx) (hdx : d ≠ x) (hw : 0 < w)
    (hb : |zx| < 2 ^ (8 * w)) : ∃ s', copy d x s = .ok (0, s') ∧ Step S s s' d ∧ V w zx 8 (s'.obj d) := by
  obtain ⟨md, d1, d2, d3⟩ := hd
  obtain ⟨mx, x1, x2, a, hx1, hx2⟩ := hx
  have hlen : mx.digs.length ≤ 8 := by
    by_contra hc
    have hne : mx.digs ≠ [] := fun h => by rw [h] at hc; simp at hc
    have h1 := Mpi.val_pos_of_top (Nat.two_pow_pos w) x1.top hne
    have h2 : (2 ^ w) ^ 8 ≤ (2 ^ w) ^ (mx.digs.length - 1) := Nat.pow_le_pow_right (Nat.two_pow_pos w) (by omega)
    have h3 := Mpi.natAbs_toInt (2 ^ w) mx
    rw [x2] at h3
    rw [Int.abs_eq_natAbs, h3] at hb
    rw [← pow_mul, Nat.mul_comm w 8] at h2
    have : val (2 ^ w) mx.digs < 2 ^ (8 * w) := by exact_mod_cast hb
    omega
  have hl : Leaf S s d (copy d x) (HoldsC mx 8) (fun _ => False) := by
    have e : copy d x s = chk (if (s.obj d).cells.length < mx.digs.length then grow d mx.digs.length else pure 0) (do
        copyLoop d x mx.digs.length 0
        setUsed d mx.digs.length
        setSign d mx.neg
        pure 0) s := by
      unfold copy
      rw [if_neg hdx, bind_ok (hdr_ok d3.1.1), bind_ok (hdr_ok hx1)]
    have := ensure_run (sp := S) (s := s) (r := d) d3.1 mx.digs.length (c := if (s.obj d).cells.length < mx.digs.length then grow d mx.digs.length else pure 0)
      (k := do
        copyLoop d x mx.digs.length 0
        setUsed d mx.digs.length
        setSign d mx.neg
        pure 0) (good := HoldsC mx 8) (bad := fun _ => False) rfl (fun h => by have := d3.2; omega) ?_
    · obtain ⟨st, s', h1, h2⟩ := this
      exact ⟨st, s', by rw [e, h1], h2⟩
    · intro s1 hg
      have hseg : Seg s1 x 0 mx.digs := Reads.seg_keep (Obj.Reads.seg ⟨a, hx1, hx2⟩) (hg.pref x)
      have hh := (hg.holds d3.1)
      have hroom := hg.room
      have hlen : (over (s1.obj d).cells 0 mx.digs).length = (s1.obj d).cells.length := over_length (by omega)
      rw [bind_ok (copyLoop_ok d x _ mx.digs 0 s1 hh.1 hseg (by omega)), bind_ok (setUsed_ok (by rw [upd_obj_same]; rfl) _),
        bind_ok (setSign_ok (by rw [upd_obj_same]; rfl) _)]
      simp only [upd_upd, upd_obj_same, cells_upd hlen, cells_upd rfl]
      refine ⟨_, rfl, Step.upd _ _ _ _ _, ?_⟩
      rw [upd_obj_same]
      refine ⟨holds_upd hh hlen over_seg0, ?_⟩
      rw [cells_upd hlen, hlen]
      obtain ⟨k, hk⟩ := hg.cells
      rw [hk]; simp; have := d3.2; omega
  obtain ⟨st, s', e, t, h⟩ := hl
  rcases h with ⟨rfl, h⟩ | ⟨-, -, h⟩
  · exact ⟨s', e, t, mx, x1, x2, h⟩
  · exact h.elim

/-- Requests that succeed. -/
theorem initListLoop_good (hw : 0 < w) : ∀ (as done : List Nat) (s : St), as.Nodup → (∀ k, s.tick ≤ k → k < s.tick + as.length → s.fails k = false) →
    ∃ s', initListLoop done as s = .ok (0, s') ∧ (∀ v, v ∉ as → s'.obj v = s.obj v) ∧ (∀ v ∈ as, V w 0 8 (s'.obj v)) ∧ s'.fails = s.fails ∧
      s'.tick = s.tick + as.length
  | [], _, s, _, _ => ⟨s, rfl, fun _ _ => rfl, fun v hv => by simp at hv, rfl, rfl⟩
  | a :: as, done, s, hn, hf => by
    rw [List.nodup_cons] at hn
    have h0 : s.fails s.tick = false := hf _ (le_refl _) (by simp)
    generalize hs1 : ({ s with tick := s.tick + 1, live := s.live + 1 } : St).set a ⟨some ⟨false, 0, quantum⟩, .mem true (List.replicate quantum none)⟩ = s1
    have e1 : init a s = .ok (0, s1) := by
      unfold init
      have : request 1 s = .ok (true, { s with tick := s.tick + 1, live := s.live + 1 }) := by
        unfold request
        rw [if_neg (by rw [h0]; decide)]
      rw [bind_ok this, ← hs1]
      rfl
    have t1 : s1.tick = s.tick + 1 := by rw [← hs1]; rfl
    have f1 : s1.fails = s.fails := by rw [← hs1]; rfl
    have o1 : ∀ v, v ≠ a → s1.obj v = s.obj v := fun v hv => by rw [← hs1]; exact if_neg hv
    have oa : s1.obj a = ⟨some ⟨false, 0, quantum⟩, .mem true (List.replicate quantum none)⟩ := by rw [← hs1]; exact if_pos rfl
    obtain ⟨s2, e2, o2, v2, f2, t2⟩ := initListLoop_good hw as (done ++ [a]) s1 hn.2 (fun k h1 h2 => by
      rw [f1]; exact hf k (by omega) (by simp; omega))
    refine ⟨s2, ?_, fun v hv => ?_, fun v hv => ?_, f2.trans f1, by rw [t2, t1]; simp; omega⟩
    · rw [initListLoop, bind_ok e1, if_pos rfl, e2]
    · rw [List.mem_cons, not_or] at hv
      rw [o2 v hv.2, o1 v hv.1]
    · rcases List.mem_cons.1 hv with rfl | hv
      · rw [o2 _ hn.1, oa]
        exact ⟨⟨false, []⟩, ⟨Mpi.norm_zero _ _, fun _ => rfl⟩, rfl,
          ⟨rfl, List.nil_prefix, Or.inr ⟨_, by decide, rfl⟩⟩, by decide⟩
      · exact v2 v hv

theorem hang_bind {α β : Type} {c : M α} {k : α → M β} {s : St} (h : c s = .hang) : (c >>= k) s = .hang := by
  show (match c s with
    | .ok (a, s') => k a s'
    | .ub => .ub
    | .hang => .hang) = _
  rw [h]

/-- The inverse never returns when all requests after the first five fail, however many turns are granted. -/
theorem invTurns_exhausted (hw : DigitWidth w) {sp r a m : Nat} {s : St} {X N : Int} (turns : Nat → Nat)
    (hf5 : ∀ k, s.tick ≤ k → k < s.tick + 5 → s.fails k = false) (hfx : ∀ k, s.tick + 5 ≤ k → s.fails k = true)
    (ha : (s.obj a).Shows w X) (hm : (s.obj m).Shows w N) (hX : 0 < X) (hN : 0 < N) (hXb : X < 2 ^ (8 * w)) (hNb : N < 2 ^ (8 * w))
    (has : a < sp) (hms : m < sp) : invTurns turns w sp r a m s = .hang := by
  have hw0 : 0 < w := by have := hw.pos; omega
  unfold invTurns
  generalize hs1 : ({ s with obj := fun p => if sp ≤ p ∧ p < sp + 5 then Obj.fresh else s.obj p } : St) = s1
  have e1 : decl sp 5 s = .ok ((), s1) := by rw [← hs1]; rfl
  have hlo : ∀ v, v < sp → s1.obj v = s.obj v := fun v hv => by rw [← hs1]; exact if_neg (by omega)
  have hf : s1.fails = s.fails := by rw [← hs1]
  have ht : s1.tick = s.tick := by rw [← hs1]
  rw [bind_ok e1]
  obtain ⟨s2, e2, o2, v2, f2, t2⟩ := initListLoop_good hw0 [sp, sp + 1, sp + 2, sp + 3, sp + 4] [] s1 (by simp) (fun k h1 h2 => by
    rw [hf]; exact hf5 k (by omega) (by simp at h2; omega))
  simp only [List.length_cons, List.length_nil] at t2
  have x2 : Exhausted s2 := fun k hk => by rw [f2, hf]; exact hfx k (by omega)
  have lo2 : ∀ v, v < sp → s2.obj v = s.obj v := fun v hv => by
    rw [o2 v (by simp only [List.mem_cons, List.not_mem_nil, or_false]; omega), hlo v hv]
  unfold chk
  have e2' : initList [sp, sp + 1, sp + 2, sp + 3, sp + 4] s1 = .ok (0, s2) := e2
  rw [bind_ok e2', if_neg (by decide)]
  obtain ⟨s3, e3, t3, q3⟩ := copy_fits (S := sp + 5) (s := s2) (d := sp) (x := a) (v2 _ (by simp)) (by rw [lo2 a has]; exact ha) (by omega) hw0
    (by rw [abs_of_pos hX]; exact hXb)
  obtain ⟨s4, e4, t4, q4⟩ := copy_fits (S := sp + 5) (s := s3) (d := sp + 1) (x := m) (zd := 0)
    (by rw [t3.frame _ (by omega) (by omega)]; exact v2 _ (by simp)) (by rw [t3.frame _ (by omega) (by omega), lo2 m hms]; exact hm) (by omega) hw0
    (by rw [abs_of_pos hN]; exact hNb)
  obtain ⟨s5, e5, t5, q5, -⟩ := setInt_run hw (S := sp + 5) (s := s4) (a := sp + 2) (z := 0) (v := 1)
    (by rw [t4.frame _ (by omega) (by omega), t3.frame _ (by omega) (by omega)]; exact v2 _ (by simp)) (by decide)
  obtain ⟨s6, e6, t6, q6, -⟩ := setInt_run hw (S := sp + 5) (s := s5) (a := sp + 3) (z := 0) (v := 0)
    (by rw [t5.frame _ (by omega) (by omega), t4.frame _ (by omega) (by omega), t3.frame _ (by omega) (by omega)]; exact v2 _ (by simp)) (by decide)
  have g0 : V w X 8 (s6.obj sp) := by
    rw [t6.frame _ (by omega) (by omega), t5.frame _ (by omega) (by omega), t4.frame _ (by omega) (by omega)]; exact q3
  have g1 : V w N 8 (s6.obj (sp + 1)) := by rw [t6.frame _ (by omega) (by omega), t5.frame _ (by omega) (by omega)]; exact q4
  have g2 : V w 1 8 (s6.obj (sp + 2)) := by rw [t6.frame _ (by omega) (by omega)]; exact q5
  have g4 : V w 0 8 (s6.obj (sp + 4)) := by
    rw [t6.frame _ (by omega) (by omega), t5.frame _ (by omega) (by omega), t4.frame _ (by omega) (by omega), t3.frame _ (by omega) (by omega)]
    exact v2 _ (by simp)
  have x6 : Exhausted s6 := t6.chg.ex (t5.chg.ex (t4.chg.ex (t3.chg.ex x2)))
  obtain ⟨hd, h1, -⟩ := used_ne (s := s6) g1 (by omega)
  refine hang_bind ?_
  rw [ign_run e3, ign_run e4, ign_run e5, ign_run e6, bind_ok (hdr_ok h1)]
  exact invLoop_exhausted hw _ s6 X N x6 hX hN (g0.weak (by omega)) (g1.weak (by omega)) ⟨_, g2.weak (by omega)⟩ ⟨_, q6.weak (by omega)⟩ (g4.weak (by omega))

end Verif.Mem
