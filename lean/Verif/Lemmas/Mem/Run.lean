import Verif.Spec.Mem
import Verif.Lemmas.Mpi.AddSub
import Mathlib.Data.List.Induction
/-! Running the primitive steps of the memory model. -/
namespace Verif.Mem
open Verif.Mpi (Mpi)

theorem bind_ok {α β : Type} {c : M α} {f : α → M β} {s s' : St} {a : α} (h : c s = .ok (a, s')) :
    (c >>= f) s = f a s' := by
  show (match c s with | .ok (a, s') => f a s' | .ub => .ub | .hang => .hang) = _
  rw [h]
theorem bind_ub {α β : Type} {c : M α} {f : α → M β} {s : St} (h : c s = .ub) : (c >>= f) s = .ub := by
  show (match c s with | .ok (a, s') => f a s' | .ub => .ub | .hang => .hang) = _
  rw [h]
theorem pure_run {α : Type} (a : α) (s : St) : (pure a : M α) s = .ok (a, s) := rfl

theorem chk_ok {c k : M Int} {s s' : St} (h : c s = .ok (0, s')) : chk c k s = k s' := by
  unfold chk; rw [bind_ok h]; rfl
theorem chk_fail {c k : M Int} {s s' : St} {st : Int} (h : c s = .ok (st, s')) (hs : st ≠ 0) :
    chk c k s = .ok (st, s') := by
  unfold chk; rw [bind_ok h, if_pos hs]; rfl
theorem chk_pure {k : M Int} {s : St} : chk (pure 0) k s = k s := chk_ok (pure_run 0 s)

/-- Replace the contents of the digit array. -/
def Data.put : Data → List (Option Nat) → Data
  | .mem h _, c => .mem h c
  | d, _ => d

/-- New members and new digits. -/
def Obj.upd (o : Obj) (h : Hdr) (c : List (Option Nat)) : Obj := ⟨some h, o.data.put c⟩
def St.upd (s : St) (r : Nat) (h : Hdr) (c : List (Option Nat)) : St := s.set r ((s.obj r).upd h c)

@[simp] theorem set_obj_same (s : St) (r : Nat) (o : Obj) : (s.set r o).obj r = o := by simp [St.set]
theorem set_obj_ne (s : St) {r p : Nat} (o : Obj) (h : p ≠ r) : (s.set r o).obj p = s.obj p := by simp [St.set, h]
@[simp] theorem set_set (s : St) (r : Nat) (o o' : Obj) : (s.set r o).set r o' = s.set r o' := by
  unfold St.set; congr 1; funext p; dsimp only; split <;> rfl
theorem set_self (s : St) (r : Nat) : s.set r (s.obj r) = s := by
  unfold St.set; congr 1; funext p; split
  · next h => rw [h]
  · rfl
@[simp] theorem set_fails (s : St) (r : Nat) (o : Obj) : (s.set r o).fails = s.fails := rfl
@[simp] theorem set_tick (s : St) (r : Nat) (o : Obj) : (s.set r o).tick = s.tick := rfl
@[simp] theorem set_live (s : St) (r : Nat) (o : Obj) : (s.set r o).live = s.live := rfl
@[simp] theorem upd_fails (s : St) (r : Nat) (h : Hdr) (c) : (s.upd r h c).fails = s.fails := rfl
@[simp] theorem upd_tick (s : St) (r : Nat) (h : Hdr) (c) : (s.upd r h c).tick = s.tick := rfl
@[simp] theorem upd_live (s : St) (r : Nat) (h : Hdr) (c) : (s.upd r h c).live = s.live := rfl
@[simp] theorem upd_obj_same (s : St) (r : Nat) (h : Hdr) (c) : (s.upd r h c).obj r = (s.obj r).upd h c := by
  simp [St.upd]
theorem upd_obj_ne (s : St) {r p : Nat} (h : Hdr) (c) (hp : p ≠ r) : (s.upd r h c).obj p = s.obj p :=
  set_obj_ne s _ hp
@[simp] theorem put_put (d : Data) (c c') : (d.put c).put c' = d.put c' := by cases d <;> rfl
theorem put_self (d : Data) : d.put d.cells = d := by cases d <;> rfl
@[simp] theorem upd_upd (s : St) (r : Nat) (h h' : Hdr) (c c') : (s.upd r h c).upd r h' c' = s.upd r h' c' := by
  simp [St.upd, Obj.upd]
theorem upd_self {s : St} {r : Nat} {h : Hdr} (hh : (s.obj r).hdr = some h) : s.upd r h (s.obj r).cells = s := by
  unfold St.upd Obj.upd Obj.cells
  rw [put_self, ← hh]
  exact set_self s r
@[simp] theorem obj_upd_hdr (o : Obj) (h : Hdr) (c) : (o.upd h c).hdr = some h := rfl
theorem cells_put {d : Data} {c : List (Option Nat)} (h : c.length = d.cells.length) :
    (d.put c).cells = c := by
  cases d with
  | mem => rfl
  | indet => exact (List.eq_nil_of_length_eq_zero h).symm
  | null => exact (List.eq_nil_of_length_eq_zero h).symm
theorem cells_upd {o : Obj} {h : Hdr} {c : List (Option Nat)} (hc : c.length = o.cells.length) :
    (o.upd h c).cells = c := cells_put hc

theorem hdr_ok {s : St} {v : Nat} {h : Hdr} (hh : (s.obj v).hdr = some h) : hdr v s = .ok (h, s) := by
  unfold hdr
  rw [bind_ok (show getObj v s = .ok (s.obj v, s) from rfl), hh]
  rfl
theorem setHdr_ok (s : St) (v : Nat) (h : Hdr) : setHdr v h s = .ok ((), s.upd v h (s.obj v).cells) := by
  unfold setHdr
  rw [bind_ok (show getObj v s = .ok (s.obj v, s) from rfl)]
  unfold St.upd Obj.upd Obj.cells
  rw [put_self]
  rfl
theorem setUsed_ok {s : St} {v : Nat} {h : Hdr} (hh : (s.obj v).hdr = some h) (n : Nat) :
    setUsed v n s = .ok ((), s.upd v { h with used := n } (s.obj v).cells) := by
  unfold setUsed; rw [bind_ok (hdr_ok hh), setHdr_ok]
theorem setSign_ok {s : St} {v : Nat} {h : Hdr} (hh : (s.obj v).hdr = some h) (g : Bool) :
    setSign v g s = .ok ((), s.upd v { h with neg := g } (s.obj v).cells) := by
  unfold setSign; rw [bind_ok (hdr_ok hh), setHdr_ok]
theorem zero_ok {s : St} {v : Nat} {h : Hdr} (hh : (s.obj v).hdr = some h) :
    zero v s = .ok ((), s.upd v { h with neg := false, used := 0 } (s.obj v).cells) := by
  unfold zero; rw [bind_ok (hdr_ok hh), setHdr_ok]

theorem rd_ok {s : St} {v i d : Nat} (h : (s.obj v).cells[i]? = some (some d)) : rd v i s = .ok (d, s) := by
  unfold rd
  rw [bind_ok (show getObj v s = .ok (s.obj v, s) from rfl)]
  unfold Obj.cells at h
  cases hd : (s.obj v).data with
  | mem hp c =>
    rw [hd] at h
    dsimp only [Data.cells] at h ⊢
    rw [h]; rfl
  | indet => rw [hd] at h; simp [Data.cells] at h
  | null => rw [hd] at h; simp [Data.cells] at h
theorem wr_ok {s : St} {v i : Nat} {h : Hdr} (hh : (s.obj v).hdr = some h) (d : Nat)
    (hi : i < (s.obj v).cells.length) :
    wr v i d s = .ok ((), s.upd v h ((s.obj v).cells.set i (some d))) := by
  unfold wr
  rw [bind_ok (show getObj v s = .ok (s.obj v, s) from rfl)]
  unfold St.upd Obj.upd Obj.cells at *
  cases hd : (s.obj v).data with
  | mem hp c =>
    rw [hd] at hi
    dsimp only [Data.cells, Data.put] at hi ⊢
    rw [if_pos hi, hh]
    rfl
  | indet => rw [hd] at hi; simp [Data.cells] at hi
  | null => rw [hd] at hi; simp [Data.cells] at hi

/-! ### Segments of the digit arrays -/

/-- The digits of `v` from position `i` on begin with `xs`. -/
def Seg (s : St) (v i : Nat) (xs : List Nat) : Prop := xs.map some <+: (s.obj v).cells.drop i

theorem Seg.head {s : St} {v i x : Nat} {xs : List Nat} (h : Seg s v i (x :: xs)) :
    (s.obj v).cells[i]? = some (some x) := by
  obtain ⟨t, ht⟩ := h
  have : ((s.obj v).cells.drop i)[0]? = some (some x) := by rw [← ht]; rfl
  rwa [List.getElem?_drop, Nat.add_zero] at this
theorem Seg.tail {s : St} {v i x : Nat} {xs : List Nat} (h : Seg s v i (x :: xs)) : Seg s v (i + 1) xs := by
  obtain ⟨t, ht⟩ := h
  refine ⟨t, ?_⟩
  rw [← List.drop_drop, ← ht]; rfl
theorem Seg.len {s : St} {v i : Nat} {xs : List Nat} (h : Seg s v i xs) : xs.length ≤ (s.obj v).cells.length - i := by
  have := List.IsPrefix.length_le h
  simpa using this
theorem Seg.get {s : St} {v i : Nat} {xs : List Nat} (h : Seg s v i xs) {k d : Nat} (hk : xs[k]? = some d) :
    (s.obj v).cells[i + k]? = some (some d) := by
  obtain ⟨t, ht⟩ := h
  have hl : k < xs.length := (List.getElem?_eq_some_iff.1 hk).1
  have : ((s.obj v).cells.drop i)[k]? = some (some d) := by
    rw [← ht, List.getElem?_append_left (by simpa using hl), List.getElem?_map, hk]; rfl
  rwa [List.getElem?_drop] at this
theorem Seg.nil (s : St) (v i : Nat) : Seg s v i [] := List.nil_prefix
/-- A digit written below position `j` does not change what is read from `j` on. -/
theorem Seg.wr {s : St} {v j : Nat} {xs : List Nat} (h : Seg s v j xs) (r i : Nat) (hr : Hdr) (d : Option Nat)
    (hi : i < j) : Seg (s.upd r hr ((s.obj r).cells.set i d)) v j xs := by
  unfold Seg
  by_cases hv : v = r
  · subst hv
    rw [upd_obj_same, cells_upd (by simp), List.drop_set_of_lt hi]
    exact h
  · rw [upd_obj_ne _ _ _ hv]; exact h
/-- Writing the members does not change digits. -/
theorem Seg.hset {s : St} {v j : Nat} {xs : List Nat} (h : Seg s v j xs) (r : Nat) (hr : Hdr) :
    Seg (s.upd r hr (s.obj r).cells) v j xs := by
  unfold Seg
  by_cases hv : v = r
  · subst hv
    rw [upd_obj_same, cells_upd rfl]; exact h
  · rw [upd_obj_ne _ _ _ hv]; exact h

/-- Digits `L` written from position `i` on. -/
def over (c : List (Option Nat)) (i : Nat) (L : List Nat) : List (Option Nat) :=
  c.take i ++ L.map some ++ c.drop (i + L.length)

theorem over_length {c : List (Option Nat)} {i : Nat} {L : List Nat} (h : i + L.length ≤ c.length) :
    (over c i L).length = c.length := by
  simp [over]; omega
theorem over_nil (c : List (Option Nat)) (i : Nat) : over c i [] = c := by simp [over]
theorem over_cons {c : List (Option Nat)} {i d : Nat} {L : List Nat} (h : i < c.length) :
    over (c.set i (some d)) (i + 1) L = over c i (d :: L) := by
  unfold over
  rw [List.take_set, List.take_add_one, List.getElem?_eq_getElem h]
  have e : (c.take i ++ (some c[i]).toList).set i (some d) = c.take i ++ [some d] := by
    rw [List.set_append_right _ _ (by simp)]
    simp [List.length_take, Nat.min_eq_left (Nat.le_of_lt h)]
  rw [e, List.drop_set_of_lt (by omega)]
  simp only [List.map_cons, List.length_cons, List.append_assoc, List.cons_append, List.nil_append]
  rw [show i + 1 + L.length = i + (L.length + 1) by omega]
theorem over_seg {c : List (Option Nat)} {i : Nat} {L : List Nat} (h : i ≤ c.length) :
    L.map some <+: (over c i L).drop i := by
  unfold over
  rw [List.append_assoc, List.drop_append_of_le_length (by simp [h]), List.drop_take]
  simp
theorem over_seg0 {c : List (Option Nat)} {L : List Nat} : L.map some <+: over c 0 L := by
  have := over_seg (c := c) (i := 0) (L := L) (by omega)
  simpa using this

theorem copyLoop_ok (r x : Nat) (h : Hdr) : ∀ (xs : List Nat) (i : Nat) (s : St), (s.obj r).hdr = some h →
    Seg s x i xs → i + xs.length ≤ (s.obj r).cells.length →
    copyLoop r x xs.length i s = .ok ((), s.upd r h (over (s.obj r).cells i xs))
  | [], i, s, hh, _, _ => by rw [over_nil, upd_self hh]; rfl
  | a :: xs, i, s, hh, hx, hc => by
    rw [List.length_cons] at hc ⊢
    rw [copyLoop, bind_ok (rd_ok hx.head), bind_ok (wr_ok hh a (by omega)),
      copyLoop_ok r x h xs (i + 1) _ (by simp) (hx.tail.wr r i h _ (by omega))
        (by rw [upd_obj_same, cells_upd (by simp)]; simp; omega),
      upd_upd, upd_obj_same, cells_upd (by simp), over_cons (by omega)]

theorem zeroLoop_ok (r : Nat) (h : Hdr) : ∀ (n i : Nat) (s : St), (s.obj r).hdr = some h →
    i + n ≤ (s.obj r).cells.length →
    zeroLoop r n i s = .ok ((), s.upd r h (over (s.obj r).cells i (List.replicate n 0)))
  | 0, i, s, hh, _ => by rw [List.replicate_zero, over_nil, upd_self hh]; rfl
  | n + 1, i, s, hh, hc => by
    rw [zeroLoop, bind_ok (wr_ok hh 0 (by omega)),
      zeroLoop_ok r h n (i + 1) _ (by simp) (by rw [upd_obj_same, cells_upd (by simp)]; simp; omega),
      upd_upd, upd_obj_same, cells_upd (by simp), over_cons (by omega)]
    rfl

theorem cmpDigs_app : ∀ (xs ys : List Nat) (x y : Nat), xs.length = ys.length →
    Mpi.cmpDigs (xs ++ [x]) (ys ++ [y]) = if x < y then -1 else if x > y then 1 else Mpi.cmpDigs xs ys
  | [], [], x, y, _ => by simp [Mpi.cmpDigs]
  | [], _ :: _, _, _, h => by simp at h
  | _ :: _, [], _, _, h => by simp at h
  | a :: xs, c :: ys, x, y, h => by
    simp only [List.cons_append, Mpi.cmpDigs]
    rw [cmpDigs_app xs ys x y (by simpa using h)]
    split_ifs <;> simp_all

theorem Seg.take {s : St} {v i : Nat} {xs : List Nat} (h : Seg s v i xs) (n : Nat) : Seg s v i (xs.take n) := by
  refine List.IsPrefix.trans ?_ h
  rw [List.map_take]
  exact List.take_prefix _ _

theorem cmpLoop_ok (x y : Nat) (s : St) : ∀ (xs ys : List Nat), Seg s x 0 xs → Seg s y 0 ys →
    xs.length = ys.length → cmpLoop x y xs.length s = .ok (Mpi.cmpDigs xs ys, s) := by
  intro xs
  induction xs using List.reverseRecOn with
  | nil => intro ys _ _ h; cases ys with
    | nil => rfl
    | cons => simp at h
  | append_singleton xs a ih =>
    intro ys hx hy h
    rcases List.eq_nil_or_concat ys with rfl | ⟨ys, c, rfl⟩
    · simp at h
    rw [List.concat_eq_append] at *
    have hl : xs.length = ys.length := by simpa using h
    have h1 : rd x xs.length s = .ok (a, s) := by
      have := hx.get (k := xs.length) (d := a) (by simp)
      rw [Nat.zero_add] at this
      exact rd_ok this
    have h2 : rd y xs.length s = .ok (c, s) := by
      have := hy.get (k := ys.length) (d := c) (by simp)
      rw [Nat.zero_add, ← hl] at this
      exact rd_ok this
    have hx' : Seg s x 0 xs := by simpa using hx.take xs.length
    have hy' : Seg s y 0 ys := by simpa using hy.take ys.length
    rw [List.length_append, List.length_singleton, cmpLoop, bind_ok h1, bind_ok h2, cmpDigs_app _ _ _ _ hl]
    have := ih ys hx' hy' hl
    split_ifs
    · rfl
    · rfl
    · exact this

end Verif.Mem
