import Verif.Lemmas.Mem.Sqrt
import Verif.Lemmas.Mpi.Bin
/-! Binary import and export in memory. -/
namespace Verif.Mem
open Verif.Mpi (Mpi Norm WF val DigitWidth)
open Verif (Byte)

variable {w : Nat}

/-! ### Import -/

theorem loadLoop_acc (w : Nat) : ∀ (ps : List Byte) (d m : Nat) (acc : List Nat), Mpi.loadLoop w ps d m acc = Mpi.loadLoop w ps d m [] ++ acc
  | [], _, _, _ => rfl
  | p :: ps, d, m, acc => by
    rw [Mpi.loadLoop, Mpi.loadLoop]
    generalize (if w > 8 then (d <<< 8) % 2 ^ w else d) ||| p.toNat = e
    split_ifs
    · rw [loadLoop_acc w ps _ _ (_ :: acc), loadLoop_acc w ps _ _ [_], List.append_assoc]; rfl
    · exact loadLoop_acc w ps _ _ acc

theorem over_last {c : List (Option Nat)} {L : List Nat} {d : Nat} (h : L.length < c.length) :
    over (c.set L.length (some d)) 0 L = over c 0 (L ++ [d]) := by
  unfold over
  simp only [List.take_zero, List.nil_append, Nat.zero_add, List.map_append, List.map_cons, List.map_nil, List.append_assoc, List.length_append,
    List.length_cons, List.length_nil]
  congr 1
  rw [List.drop_set, if_neg (by omega), Nat.sub_self, List.drop_eq_getElem_cons h]
  rfl

theorem loadLoop_ok (w x : Nat) (h : Hdr) : ∀ (ps : List Byte) (d m : Nat) (s : St), (s.obj x).hdr = some h →
    (Mpi.loadLoop w ps d m []).length ≤ (s.obj x).cells.length →
    loadLoop w x ps d m (Mpi.loadLoop w ps d m []).length s = .ok ((), s.upd x h (over (s.obj x).cells 0 (Mpi.loadLoop w ps d m [])))
  | [], d, m, s, hh, _ => by
    rw [loadLoop, Mpi.loadLoop, over_nil, upd_self hh]; rfl
  | p :: ps, d, m, s, hh, hl => by
    rw [loadLoop]
    rw [Mpi.loadLoop] at hl ⊢
    generalize (if w > 8 then (d <<< 8) % 2 ^ w else d) ||| p.toNat = e at *
    by_cases hm : m = 0
    · simp only [if_pos hm] at hl ⊢
      rw [loadLoop_acc] at hl ⊢
      generalize hL : Mpi.loadLoop w ps 0 (w / 8 - 1) [] = L at *
      rw [List.length_append, List.length_singleton] at hl ⊢
      have ih := loadLoop_ok w x h ps 0 (w / 8 - 1) (s.upd x h ((s.obj x).cells.set L.length (some e))) (by simp)
        (by rw [upd_obj_same, cells_upd (by simp), hL]; simp; omega)
      rw [hL] at ih
      rw [Nat.add_sub_cancel, bind_ok (wr_ok hh e (by omega)), ih, upd_upd, upd_obj_same, cells_upd (by simp), over_last (by omega)]
    · simp only [if_neg hm] at hl ⊢
      exact loadLoop_ok w x h ps e (m - 1) s hh hl

theorem loadLoop_length (hw : DigitWidth w) (p : Byte) (ps : List Byte) :
    (Mpi.loadLoop w (p :: ps) 0 (ps.length % (w / 8)) []).length = ps.length / (w / 8) + 1 := by
  obtain ⟨B, hB, rfl⟩ : ∃ B, 0 < B ∧ w = 8 * B := by
    rcases hw with h | h | h | h
    · exact ⟨1, by omega, h⟩
    · exact ⟨2, by omega, h⟩
    · exact ⟨4, by omega, h⟩
    · exact ⟨8, by omega, h⟩
  rw [show 8 * B / 8 = B by omega]
  have := (Mpi.loadLoop_spec hB (p :: ps) 0 (ps.length % B) (ps.length / B) [] (by
    rw [List.length_cons]; have := Nat.mod_add_div ps.length B; omega) (Nat.mod_lt _ hB) (by positivity) (by simp [Mpi.Digits])).2.1
  simpa using this

/-- Binary import keeps the sign of the object unless the number is zero. -/
theorem loadBin_leaf (hw : DigitWidth w) {sp x n : Nat} {s : St} {mx : Mpi} (hx : HoldsC mx n (s.obj x)) (bs : List Byte) :
    Leaf sp s x (loadBin w x bs) (HoldsC (Mpi.loadBin w mx.neg bs) n) (· = s.obj x) := by
  unfold loadBin Mpi.loadBin
  cases hb : bs.dropWhile (· == 0#8) with
  | nil =>
    refine ⟨0, _, by dsimp only; rw [bind_ok (zero_ok hx.1.1)]; rfl, Step.upd _ _ _ _ _, Or.inl ⟨rfl, ?_⟩⟩
    rw [upd_obj_same]
    exact ⟨holds_upd (m' := ⟨false, []⟩) hx.1 rfl List.nil_prefix, by rw [cells_upd rfl]; exact hx.2⟩
  | cons p ps =>
    dsimp only
    have hlen := loadLoop_length hw p ps
    have := ensure_run (sp := sp) hx.1 (ps.length / (w / 8) + 1) (bad := (· = s.obj x)) (good := HoldsC ⟨mx.neg, Mpi.loadLoop w (p :: ps) 0 (ps.length % (w / 8)) []⟩ n)
      (c := if (s.obj x).cells.length < ps.length / (w / 8) + 1 then grow x (ps.length / (w / 8) + 1) else pure 0)
      (k := do
        setUsed x (ps.length / (w / 8) + 1)
        loadLoop w x (p :: ps) 0 (ps.length % (w / 8)) (ps.length / (w / 8) + 1)
        pure 0) rfl (fun _ => rfl) ?_
    · obtain ⟨st, s', h1, h2⟩ := this
      exact ⟨st, s', by rw [bind_ok (hdr_ok hx.1.1), h1], h2⟩
    · intro s1 hg
      have hh := hg.holds hx.1
      have hroom := hg.room
      rw [← hlen] at hroom ⊢
      generalize hL : Mpi.loadLoop w (p :: ps) 0 (ps.length % (w / 8)) [] = L at *
      have hl : (over (s1.obj x).cells 0 L).length = (s1.obj x).cells.length := over_length (by omega)
      have hk := loadLoop_ok w x { neg := mx.neg, used := L.length, alloc := (s1.obj x).cells.length } (p :: ps) 0 (ps.length % (w / 8))
        (s1.upd x { neg := mx.neg, used := L.length, alloc := (s1.obj x).cells.length } (s1.obj x).cells) (by simp) (by
          rw [hL, upd_obj_same, cells_upd rfl]; omega)
      rw [hL, upd_obj_same, cells_upd rfl, upd_upd] at hk
      rw [bind_ok (setUsed_ok hh.1 _), bind_ok hk]
      refine ⟨_, rfl, Step.upd _ _ _ _ _, ?_⟩
      rw [upd_obj_same]
      refine ⟨holds_upd (m' := ⟨mx.neg, L⟩) hh hl over_seg0, ?_⟩
      rw [cells_upd hl, hl]
      obtain ⟨k, hk⟩ := hg.cells
      rw [hk]; simp; have := hx.2; omega

/-! ### Buffers -/

/-- Bytes `L` written from position `i` on. -/
def overB (c : Buf) (i : Nat) (L : List Byte) : Buf := c.take i ++ L.map some ++ c.drop (i + L.length)

theorem overB_length {c : Buf} {i : Nat} {L : List Byte} (h : i + L.length ≤ c.length) : (overB c i L).length = c.length := by
  simp [overB]; omega
theorem overB_nil (c : Buf) (i : Nat) : overB c i [] = c := by simp [overB]
theorem overB_cons {c : Buf} {i : Nat} {d : Byte} {L : List Byte} (h : i < c.length) :
    overB (c.set i (some d)) (i + 1) L = overB c i (d :: L) := by
  unfold overB
  rw [List.take_set, List.take_add_one, List.getElem?_eq_getElem h]
  have e : (c.take i ++ (some c[i]).toList).set i (some d) = c.take i ++ [some d] := by
    rw [List.set_append_right _ _ (by simp)]
    simp [List.length_take, Nat.min_eq_left (Nat.le_of_lt h)]
  rw [e, List.drop_set_of_lt (by omega)]
  simp only [List.map_cons, List.length_cons, List.append_assoc, List.cons_append, List.nil_append]
  rw [show i + 1 + L.length = i + (L.length + 1) by omega]

theorem overB_get {c : Buf} {i k : Nat} {L : List Byte} (h : i + L.length ≤ c.length) :
    (overB c i L)[k]? = if k < i then c[k]? else if k < i + L.length then (L[k - i]?).map some else c[k]? := by
  unfold overB
  split_ifs with h1 h2
  · rw [List.append_assoc, List.getElem?_append_left (by simp; omega), List.getElem?_take_of_lt h1]
  · rw [List.getElem?_append_left (by simp; omega), List.getElem?_append_right (by simp; omega), List.getElem?_map]
    simp [Nat.min_eq_left (show i ≤ c.length by omega)]
  · rw [List.getElem?_append_right (by simp; omega), List.getElem?_drop]
    congr 1
    simp; omega

theorem put_ok {b : Buf} {i : Nat} (v : Byte) (h : i < b.length) (s : St) : put b i v s = .ok (b.set i (some v), s) := by
  unfold put; rw [if_pos h]; rfl
theorem get_ok {b : Buf} {i : Nat} {v : Byte} (h : b[i]? = some (some v)) (s : St) : get b i s = .ok (v, s) := by
  unfold get; rw [h]; rfl

/-- Writing `L` and then `L'` behind it. -/
theorem overB_append (c : Buf) : ∀ (L L' : List Byte) (i : Nat), i + L.length + L'.length ≤ c.length →
    overB (overB c i L) (i + L.length) L' = overB c i (L ++ L')
  | [], L', i, h => by rw [overB_nil]; rfl
  | d :: L, L', i, h => by
    rw [List.length_cons] at h
    have := overB_append (c.set i (some d)) L L' (i + 1) (by simp; omega)
    rw [overB_cons (by omega), overB_cons (by omega)] at this
    rw [List.cons_append, ← this]
    congr 1
    rw [List.length_cons]; omega

/-! ### Export -/

theorem countBytes_run {v : Nat} {s : St} {m : Mpi} (h : (s.obj v).Reads m) : countBytes w v s = .ok (Mpi.countBytes w m, s) := by
  unfold countBytes Mpi.countBytes
  rw [bind_ok (countBits_run h)]; rfl

theorem zeroBytes_ok (s : St) : ∀ (n p : Nat) (b : Buf), p + n ≤ b.length → zeroBytes n p b s = .ok (overB b p (List.replicate n 0), s)
  | 0, p, b, _ => by rw [zeroBytes, List.replicate_zero, overB_nil]; rfl
  | n + 1, p, b, h => by
    rw [zeroBytes, bind_ok (put_ok 0 (by omega) s), zeroBytes_ok s n (p + 1) _ (by simp; omega), overB_cons (by omega)]; rfl

theorem storeLoop_length {x : Mpi} : ∀ i, (Mpi.storeLoop w x i).length = i
  | 0 => rfl
  | i + 1 => by rw [Mpi.storeLoop, List.length_cons, storeLoop_length i]

theorem storeLoop_ok {x : Nat} {s : St} {m : Mpi} (h : (s.obj x).Reads m) : ∀ (i p : Nat) (b : Buf), i ≤ m.digs.length * (w / 8) → p + i ≤ b.length →
    storeLoop w x i p b s = .ok (overB b p (Mpi.storeLoop w m i), s)
  | 0, p, b, _, _ => by rw [storeLoop, Mpi.storeLoop, overB_nil]; rfl
  | i + 1, p, b, hi, hb => by
    have hk : i / (w / 8) < m.digs.length := by
      rw [Nat.div_lt_iff_lt_mul (by rcases Nat.eq_zero_or_pos (w / 8) with h0 | h0; · rw [h0] at hi; omega
                                    · exact h0)]; omega
    rw [storeLoop, Mpi.storeLoop, bind_ok (rd_run h hk), bind_ok (put_ok _ (by omega) s), storeLoop_ok h i (p + 1) _ (by omega) (by simp; omega), overB_cons (by omega)]

theorem countBytes_le (hw : DigitWidth w) {m : Mpi} (hm : Norm (2 ^ w) m) : Mpi.countBytes w m ≤ m.digs.length * (w / 8) := by
  unfold Mpi.countBytes
  rw [Mpi.countBits_spec hw hm]
  have h1 := Mpi.val_lt hm.digits
  rw [← pow_mul, ← Nat.size_le] at h1
  have : w * m.digs.length = 8 * (m.digs.length * (w / 8)) := by
    rcases hw with h | h | h | h <;> subst h <;> simp <;> ring
  omega

/-- Binary export into a buffer that is large enough. -/
theorem storeBin_ok (hw : DigitWidth w) {x : Nat} {s : St} {m : Mpi} (h : (s.obj x).Reads m) (hm : Norm (2 ^ w) m) {b : Buf} {p bufsiz : Nat} {pad : Bool}
    {bs : List Byte} (hbs : Mpi.storeBin w m bufsiz pad = some bs) (hb : p + bs.length ≤ b.length) :
    storeBin w x b p bufsiz pad s = .ok ((0, overB b p bs), s) := by
  unfold Mpi.storeBin at hbs
  unfold storeBin
  rw [bind_ok (countBytes_run h)]
  dsimp only at hbs ⊢
  by_cases hc : bufsiz < Mpi.countBytes w m
  · rw [if_pos hc] at hbs; cases hbs
  · rw [if_neg hc] at hbs ⊢
    have hle : Mpi.countBytes w m ≤ if pad = true then bufsiz else Mpi.countBytes w m := by split <;> omega
    generalize (if pad = true then bufsiz else Mpi.countBytes w m) = bz at *
    cases hbs
    rw [List.length_append, List.length_replicate, storeLoop_length] at hb
    rw [bind_ok (zeroBytes_ok s _ p b (by omega)), bind_ok (storeLoop_ok h _ _ _ (countBytes_le hw hm) (by rw [overB_length (by simp; omega)]; omega))]
    have := overB_append b (List.replicate (bz - Mpi.countBytes w m) 0) (Mpi.storeLoop w m (Mpi.countBytes w m)) p (by simp [storeLoop_length]; omega)
    rw [List.length_replicate] at this
    rw [this]; rfl

theorem storeBin_small {x : Nat} {s : St} {m : Mpi} (h : (s.obj x).Reads m) {b : Buf} {p bufsiz : Nat} {pad : Bool}
    (hbs : Mpi.storeBin w m bufsiz pad = none) : storeBin w x b p bufsiz pad s = .ok ((-1, b), s) := by
  unfold Mpi.storeBin at hbs
  unfold storeBin
  rw [bind_ok (countBytes_run h)]
  dsimp only at hbs ⊢
  by_cases hc : bufsiz < Mpi.countBytes w m
  · rw [if_pos hc]; rfl
  · rw [if_neg hc] at hbs; cases hbs

end Verif.Mem
