import Verif.Lemmas.Mem.Leaf
import Verif.Lemmas.Mpi.Shift
/-! Signed addition and subtraction, shifts. -/
namespace Verif.Mem
open Verif.Mpi (Mpi Norm val)

theorem setSign_leaf {sp : Nat} {s : St} {r : Nat} {c : M Int} {m : Mpi} {n : Nat} {P bad : Obj → Prop}
    (h : Leaf sp s r c (fun o => HoldsC m n o ∧ P o) bad) (g : Bool)
    (hP : ∀ o h', P o → P (o.upd h' o.cells)) :
    Leaf sp s r (signed c r g) (fun o => HoldsC ⟨g, m.digs⟩ n o ∧ P o) bad := by
  obtain ⟨st, s1, h1, h2, h3⟩ := h
  unfold signed
  rcases h3 with ⟨rfl, h, hp⟩ | ⟨rfl, hf, h⟩
  · refine ⟨0, _, ?_, h2.trans (Step.upd sp s1 r ⟨g, m.digs.length, (s1.obj r).cells.length⟩ (s1.obj r).cells), Or.inl ⟨rfl, ?_⟩⟩
    · rw [bind_ok h1, if_pos rfl, bind_ok (setSign_ok h.1.1 _)]; rfl
    · rw [upd_obj_same]
      exact ⟨⟨holds_upd (m' := ⟨g, m.digs⟩) h.1 rfl h.1.2.1, by rw [cells_upd rfl]; exact h.2⟩, hP _ _ hp⟩
  · exact ⟨-1, s1, by rw [bind_ok h1, if_neg (by decide)]; rfl, h2, Or.inr ⟨rfl, hf, h⟩⟩

/-- Digits of the array above the number up to position `N` are zero, unless the number is zero. -/
def CleanTo (N : Nat) (m : Mpi) (o : Obj) : Prop :=
  m.digs = [] ∨ ∀ j, m.digs.length ≤ j → j ≤ N → o.cells[j]? = some (some 0)

theorem zero_leaf {sp : Nat} {s : St} {r : Nat} {m : Mpi} {n : Nat} (hr : HoldsC m n (s.obj r)) (bad : Obj → Prop) :
    Leaf sp s r (do zero r; pure 0) (HoldsC ⟨false, []⟩ n) bad := by
  refine ⟨0, _, ?_, Step.upd sp s r ⟨false, 0, (s.obj r).cells.length⟩ (s.obj r).cells, Or.inl ⟨rfl, ?_⟩⟩
  · rw [bind_ok (zero_ok hr.1.1)]; rfl
  · rw [upd_obj_same]
    exact ⟨holds_upd (m' := ⟨false, []⟩) hr.1 rfl List.nil_prefix, by rw [cells_upd rfl]; exact hr.2⟩

theorem adjust_zeros (L : List Nat) : ∀ j, (Mpi.adjust L).length ≤ j → j < L.length → L[j]? = some 0 := by
  induction L using List.reverseRecOn with
  | nil => intro j _ h; simp at h
  | append_singleton L a ih =>
    intro j h1 h2
    rw [Mpi.adjust_concat] at h1
    rw [List.length_append, List.length_singleton] at h2
    by_cases ha : a = 0
    · rw [if_pos ha] at h1
      by_cases hj : j < L.length
      · rw [List.getElem?_append_left hj]; exact ih j h1 hj
      · have : j = L.length := by omega
        subst this; subst ha
        simp
    · rw [if_neg ha, List.length_append, List.length_singleton] at h1
      omega

theorem subCells_clean {c : List (Option Nat)} {L : List Nat} {o : Obj} (h : SubCells c L o) {N : Nat}
    (hN : ∀ j, L.length ≤ j → j ≤ N → c[j]? = some (some 0)) (g : Bool) :
    CleanTo N ⟨g, Mpi.adjust L⟩ o := by
  obtain ⟨k, hk⟩ := h
  right
  intro j h1 h2
  rw [hk]
  unfold over
  rw [List.take_zero, List.nil_append, Nat.zero_add]
  by_cases hj : j < L.length
  · rw [List.getElem?_append_left (by simpa using hj), List.getElem?_map, adjust_zeros L j h1 hj]; rfl
  · rw [List.getElem?_append_right (by simpa using hj), List.length_map, List.getElem?_drop,
      show L.length + (j - L.length) = j by omega]
    have := hN j (by omega) h2
    rw [List.getElem?_append_left (List.getElem?_eq_some_iff.1 this).1]
    exact this

/-- What is kept about the digits above the number by additions and subtractions. -/
def KeepsClean (N : Nat) (mx my : Mpi) (c : List (Option Nat)) (m : Mpi) (o : Obj) : Prop :=
  (∀ j, max mx.digs.length my.digs.length ≤ j → j ≤ N → c[j]? = some (some 0)) → CleanTo N m o

theorem CleanTo.upd {N : Nat} {m : Mpi} {o : Obj} {h : Hdr} (hc : CleanTo N m o) : CleanTo N m (o.upd h o.cells) := by
  rcases hc with hc | hc
  · exact Or.inl hc
  · exact Or.inr fun j h1 h2 => by rw [cells_upd rfl]; exact hc j h1 h2

theorem subAbs_val {sp b : Nat} {s : St} {r x y : Nat} {mr mx my : Mpi} {n : Nat} (hb : 1 < b) (hr : HoldsC mr n (s.obj r))
    (hx : (s.obj x).Reads mx) (hy : (s.obj y).Reads my) (nx : Norm b mx) (ny : Norm b my)
    (hle : val b my.digs ≤ val b mx.digs) :
    ∃ m, Mpi.subAbs b mx my = some m ∧ Leaf sp s r (subAbs b r x y)
      (fun o => HoldsC m n o ∧ ∀ N, KeepsClean N mx my (s.obj r).cells m o) (HoldsC mr n) := by
  have hlen : my.digs.length ≤ mx.digs.length := by
    by_contra h
    have := Mpi.val_lt_of_len (by omega) nx.digits ny.top (Nat.lt_of_not_le h)
    omega
  obtain ⟨L, hL, -, -, hLl⟩ := Mpi.subLoop_spec hb _ _ 0 nx.digits ny.digits (by omega) (by omega) hlen
  have hc := Mpi.cmpAbs_spec (by omega) nx ny
  have hc' : ¬ Mpi.cmpAbs mx my < 0 := by omega
  refine ⟨⟨false, Mpi.adjust L⟩, ?_, ?_⟩
  · unfold Mpi.subAbs; rw [if_neg hc', hL]; rfl
  · refine (subAbs_run hr hx hy hc' hL).mono ?_ (fun _ h => h)
    rintro o ⟨h1, h2⟩
    exact ⟨h1, fun N hN => subCells_clean h2 (fun j hj => hN j (by omega)) _⟩

theorem KeepsClean.swap {N : Nat} {mx my m : Mpi} {c : List (Option Nat)} {o : Obj} (h : KeepsClean N mx my c m o) :
    KeepsClean N my mx c m o := by
  intro hN; exact h (by rw [Nat.max_comm]; exact hN)

theorem Leaf.congr {sp : Nat} {s : St} {r : Nat} {c c' : M Int} {good bad : Obj → Prop} (h : Leaf sp s r c' good bad)
    (e : c s = c' s) : Leaf sp s r c good bad := by
  unfold Leaf at *
  rw [e]; exact h

/-- `cry_mpi_add`, whatever objects coincide. -/
theorem add_run {sp b : Nat} {s : St} {r x y : Nat} {mr mx my : Mpi} {n : Nat} (hb : 1 < b) (hr : HoldsC mr n (s.obj r))
    (hx : (s.obj x).Reads mx) (hy : (s.obj y).Reads my) (nx : Norm b mx) (ny : Norm b my) :
    ∃ m, Mpi.add b mx my = some m ∧ Leaf sp s r (add b r x y)
      (fun o => HoldsC m n o ∧ (mx.neg ≠ my.neg → ∀ N, KeepsClean N mx my (s.obj r).cells m o)) (HoldsC mr n) := by
  have hcmp := cmpAbs_run hx hy
  have hx0 := hx; have hy0 := hy
  obtain ⟨ax, hx1, hx2⟩ := hx
  obtain ⟨ay, hy1, hy2⟩ := hy
  unfold Mpi.add
  have e : add b r x y s = (if mx.neg = my.neg then signed (addAbs b r x y) r mx.neg
      else do
        let k ← cmpAbs x y
        if k = 1 then signed (subAbs b r x y) r mx.neg
        else if k = -1 then signed (subAbs b r y x) r my.neg
        else signed (do zero r; pure 0) r false) s := by
    unfold add
    rw [bind_ok (hdr_ok hx1), bind_ok (hdr_ok hy1)]
  by_cases hs : mx.neg = my.neg
  · rw [if_pos hs]
    rw [if_pos hs] at e
    refine ⟨_, rfl, Leaf.congr ?_ e⟩
    have := (addAbs_run (sp := sp) (b := b) hr hx0 hy0).mono (g' := fun o => HoldsC (Mpi.addAbs b mx my) n o ∧ True)
      (fun o h => ⟨h, trivial⟩) (fun _ h => h)
    have := setSign_leaf this mx.neg (fun _ _ _ => trivial)
    exact this.mono (fun o h => ⟨h.1, fun h' => absurd hs h'⟩) (fun _ h => h)
  · rw [if_neg hs]
    rw [if_neg hs, bind_ok hcmp] at e
    have kc : ∀ (ma mb m : Mpi) (o : Obj) (h' : Hdr) g, (∀ N, KeepsClean N ma mb (s.obj r).cells m o) →
        ∀ N, KeepsClean N ma mb (s.obj r).cells ⟨g, m.digs⟩ (o.upd h' o.cells) := by
      intro ma mb m o h' g h N hN
      rcases (h N hN) with h | h
      · exact Or.inl h
      · exact Or.inr fun j h1 h2 => by rw [cells_upd rfl]; exact h j h1 h2
    rcases Mpi.cmpAbs_spec (by omega) nx ny with ⟨h1, h2⟩ | ⟨h1, h2⟩ | ⟨h1, h2⟩
    · obtain ⟨m, e1, e2⟩ := subAbs_val (sp := sp) hb hr hy0 hx0 ny nx (by omega)
      rw [h1] at e ⊢
      rw [e1]
      refine ⟨_, rfl, Leaf.congr ?_ e⟩
      have := setSign_leaf e2 my.neg (fun o h' h N => by
        have := kc _ _ _ o h' m.neg h N; exact this)
      exact this.mono (fun o h => ⟨h.1, fun _ N => (h.2 N).swap⟩) (fun _ h => h)
    · rw [h1] at e ⊢
      refine ⟨_, rfl, Leaf.congr (c' := signed (do zero r; pure 0) r false) ?_ e⟩
      have := (zero_leaf (sp := sp) hr (HoldsC mr n)).mono (g' := fun o => HoldsC ⟨false, []⟩ n o ∧ True)
        (fun o h => ⟨h, trivial⟩) (fun _ h => h)
      have := setSign_leaf this false (fun _ _ _ => trivial)
      exact this.mono (fun o h => ⟨h.1, fun _ N _ => Or.inl rfl⟩) (fun _ h => h)
    · obtain ⟨m, e1, e2⟩ := subAbs_val (sp := sp) hb hr hx0 hy0 nx ny (by omega)
      rw [h1] at e ⊢
      rw [e1]
      refine ⟨_, rfl, Leaf.congr ?_ e⟩
      have := setSign_leaf e2 mx.neg (fun o h' h N => by
        have := kc _ _ _ o h' m.neg h N; exact this)
      exact this.mono (fun o h => ⟨h.1, fun _ N => h.2 N⟩) (fun _ h => h)

/-- `cry_mpi_sub`, whatever objects coincide. -/
theorem sub_run {sp b : Nat} {s : St} {r x y : Nat} {mr mx my : Mpi} {n : Nat} (hb : 1 < b) (hr : HoldsC mr n (s.obj r))
    (hx : (s.obj x).Reads mx) (hy : (s.obj y).Reads my) (nx : Norm b mx) (ny : Norm b my) :
    ∃ m, Mpi.sub b mx my = some m ∧ Leaf sp s r (sub b r x y)
      (fun o => HoldsC m n o ∧ (mx.neg = my.neg → ∀ N, KeepsClean N mx my (s.obj r).cells m o)) (HoldsC mr n) := by
  have hcmp := cmpAbs_run hx hy
  have hx0 := hx; have hy0 := hy
  obtain ⟨ax, hx1, hx2⟩ := hx
  obtain ⟨ay, hy1, hy2⟩ := hy
  unfold Mpi.sub
  have e : sub b r x y s = (if mx.neg ≠ my.neg then signed (addAbs b r x y) r mx.neg
      else do
        let k ← cmpAbs x y
        if k = 1 then signed (subAbs b r x y) r mx.neg
        else if k = -1 then signed (subAbs b r y x) r (!my.neg)
        else signed (do zero r; pure 0) r false) s := by
    unfold sub
    rw [bind_ok (hdr_ok hx1), bind_ok (hdr_ok hy1)]
  by_cases hs : mx.neg ≠ my.neg
  · rw [if_pos hs]
    rw [if_pos hs] at e
    refine ⟨_, rfl, Leaf.congr ?_ e⟩
    have := (addAbs_run (sp := sp) (b := b) hr hx0 hy0).mono (g' := fun o => HoldsC (Mpi.addAbs b mx my) n o ∧ True)
      (fun o h => ⟨h, trivial⟩) (fun _ h => h)
    have := setSign_leaf this mx.neg (fun _ _ _ => trivial)
    exact this.mono (fun o h => ⟨h.1, fun h' => absurd h' hs⟩) (fun _ h => h)
  · rw [if_neg hs]
    rw [if_neg hs, bind_ok hcmp] at e
    have kc : ∀ (ma mb m : Mpi) (o : Obj) (h' : Hdr) g, (∀ N, KeepsClean N ma mb (s.obj r).cells m o) →
        ∀ N, KeepsClean N ma mb (s.obj r).cells ⟨g, m.digs⟩ (o.upd h' o.cells) := by
      intro ma mb m o h' g h N hN
      rcases (h N hN) with h | h
      · exact Or.inl h
      · exact Or.inr fun j h1 h2 => by rw [cells_upd rfl]; exact h j h1 h2
    rcases Mpi.cmpAbs_spec (by omega) nx ny with ⟨h1, h2⟩ | ⟨h1, h2⟩ | ⟨h1, h2⟩
    · obtain ⟨m, e1, e2⟩ := subAbs_val (sp := sp) hb hr hy0 hx0 ny nx (by omega)
      rw [h1] at e ⊢
      rw [e1]
      refine ⟨_, rfl, Leaf.congr ?_ e⟩
      have := setSign_leaf e2 (!my.neg) (fun o h' h N => by
        have := kc _ _ _ o h' m.neg h N; exact this)
      exact this.mono (fun o h => ⟨h.1, fun _ N => (h.2 N).swap⟩) (fun _ h => h)
    · rw [h1] at e ⊢
      refine ⟨_, rfl, Leaf.congr (c' := signed (do zero r; pure 0) r false) ?_ e⟩
      have := (zero_leaf (sp := sp) hr (HoldsC mr n)).mono (g' := fun o => HoldsC ⟨false, []⟩ n o ∧ True)
        (fun o h => ⟨h, trivial⟩) (fun _ h => h)
      have := setSign_leaf this false (fun _ _ _ => trivial)
      exact this.mono (fun o h => ⟨h.1, fun _ N _ => Or.inl rfl⟩) (fun _ h => h)
    · obtain ⟨m, e1, e2⟩ := subAbs_val (sp := sp) hb hr hx0 hy0 nx ny (by omega)
      rw [h1] at e ⊢
      rw [e1]
      refine ⟨_, rfl, Leaf.congr ?_ e⟩
      have := setSign_leaf e2 mx.neg (fun o h' h N => by
        have := kc _ _ _ o h' m.neg h N; exact this)
      exact this.mono (fun o h => ⟨h.1, fun _ N => h.2 N⟩) (fun _ h => h)

/-! ### Shifts -/

theorem over_over_low {c : List (Option Nat)} {n : Nat} {L : List Nat} (h : n + L.length ≤ c.length) (Z : List Nat)
    (hZ : Z.length = n) : over (over c n L) 0 Z = over c 0 (Z ++ L) := by
  unfold over
  simp only [List.take_zero, List.nil_append, Nat.zero_add, List.map_append, List.length_append, List.append_assoc]
  congr 1
  rw [hZ, List.drop_append_of_le_length (by simp; omega), List.drop_take, Nat.sub_self, List.take_zero, List.nil_append]

/-- `cry_mpi_shld` when there is room: the array does not move. -/
theorem shld_core {sp : Nat} {s : St} {a : Nat} {m : Mpi} (hm : (s.obj a).Holds m) {k : Nat} (hk : k ≠ 0) (hm0 : m.digs ≠ [])
    (hroom : m.digs.length + k ≤ (s.obj a).cells.length) :
    ∃ s', (do
      setUsed a (m.digs.length + k)
      shldLoop a k m.digs.length
      zeroLoop a k 0
      pure 0 : M Int) s = .ok (0, s') ∧ Step sp s s' a ∧ (s'.obj a).Holds (Mpi.shld m k) ∧
      (s'.obj a).cells = over (s.obj a).cells 0 (List.replicate k 0 ++ m.digs) := by
  have sm := Obj.Reads.seg hm.reads
  have hl1 : (over (s.obj a).cells k m.digs).length = (s.obj a).cells.length := over_length (by omega)
  have hl2 : (over (s.obj a).cells 0 (List.replicate k 0 ++ m.digs)).length = (s.obj a).cells.length :=
    over_length (by simp; omega)
  have hval : Mpi.shld m k = ⟨m.neg, List.replicate k 0 ++ m.digs⟩ := by
    unfold Mpi.shld; rw [if_neg (by simp [hk, hm0])]
  rw [bind_ok (setUsed_ok hm.1 _), bind_ok (shldLoop_ok a k _ m.digs _ (by rw [upd_obj_same]; rfl) (sm.hset a _)
    (by rw [upd_obj_same, cells_upd rfl]; omega) (by omega))]
  simp only [upd_upd, upd_obj_same, cells_upd rfl]
  rw [bind_ok (zeroLoop_ok a _ k 0 _ (by rw [upd_obj_same]; rfl) (by rw [upd_obj_same, cells_upd hl1, hl1]; omega))]
  simp only [upd_upd, upd_obj_same, cells_upd hl1]
  rw [over_over_low (by omega) _ (by simp)]
  refine ⟨_, rfl, Step.upd _ _ _ _ _, ?_, ?_⟩
  · rw [upd_obj_same, hval]
    have := holds_upd (m' := ⟨m.neg, List.replicate k 0 ++ m.digs⟩) hm hl2 over_seg0
    simp only [List.length_append, List.length_replicate, Nat.add_comm k] at this
    exact this
  · rw [upd_obj_same, cells_upd hl2]

theorem shld_run {sp : Nat} {s : St} {a : Nat} {m : Mpi} {n : Nat} (hm : HoldsC m n (s.obj a)) (k : Nat) :
    Leaf sp s a (shld a k) (HoldsC (Mpi.shld m k) n) (HoldsC m n) := by
  by_cases hz : k = 0 ∨ m.digs.length = 0
  · refine ⟨0, s, ?_, Step.refl _ _ _, Or.inl ⟨rfl, ?_⟩⟩
    · unfold shld; rw [bind_ok (hdr_ok hm.1.1), if_pos hz]; rfl
    · unfold Mpi.shld
      rw [if_pos (by rcases hz with h | h; exact Or.inl h; exact Or.inr (List.eq_nil_of_length_eq_zero h))]
      exact hm
  · have hk : k ≠ 0 := fun h => hz (Or.inl h)
    have hm0 : m.digs ≠ [] := fun h => hz (Or.inr (by simp [h]))
    have e : shld a k s = chk (if (s.obj a).cells.length < m.digs.length + k then grow a (m.digs.length + k) else pure 0) (do
        setUsed a (m.digs.length + k)
        shldLoop a k m.digs.length
        zeroLoop a k 0
        pure 0) s := by
      unfold shld; rw [bind_ok (hdr_ok hm.1.1), if_neg hz]
    have := ensure_run (sp := sp) (s := s) (r := a) hm.1 (m.digs.length + k)
      (c := if (s.obj a).cells.length < m.digs.length + k then grow a (m.digs.length + k) else pure 0) (k := do
        setUsed a (m.digs.length + k)
        shldLoop a k m.digs.length
        zeroLoop a k 0
        pure 0) (good := HoldsC (Mpi.shld m k) n) (bad := HoldsC m n) rfl (fun _ => hm) ?_
    · obtain ⟨st, s', h1, h2⟩ := this
      exact ⟨st, s', by rw [e, h1], h2⟩
    · intro s1 hg
      obtain ⟨s', h1, h2, h3, h4⟩ := shld_core (sp := sp) (hg.holds hm.1) hk hm0 hg.room
      refine ⟨s', h1, h2, h3, ?_⟩
      have := hg.room
      rw [h4, over_length (by simp; omega)]
      obtain ⟨q, hq⟩ := hg.cells
      rw [hq]; simp; have := hm.2; omega

theorem shld_room {sp : Nat} {s : St} {a : Nat} {m : Mpi} (hm : (s.obj a).Holds m) (k : Nat)
    (hroom : m.digs.length + k ≤ (s.obj a).cells.length) :
    ∃ s', shld a k s = .ok (0, s') ∧ Step sp s s' a ∧ (s'.obj a).Holds (Mpi.shld m k) ∧
      (s'.obj a).cells.length = (s.obj a).cells.length := by
  by_cases hz : k = 0 ∨ m.digs.length = 0
  · refine ⟨s, ?_, Step.refl _ _ _, ?_, rfl⟩
    · unfold shld; rw [bind_ok (hdr_ok hm.1), if_pos hz]; rfl
    · unfold Mpi.shld
      rw [if_pos (by rcases hz with h | h; exact Or.inl h; exact Or.inr (List.eq_nil_of_length_eq_zero h))]
      exact hm
  · have hk : k ≠ 0 := fun h => hz (Or.inl h)
    have hm0 : m.digs ≠ [] := fun h => hz (Or.inr (by simp [h]))
    obtain ⟨s', h1, h2, h3, h4⟩ := shld_core (sp := sp) hm hk hm0 hroom
    refine ⟨s', ?_, h2, h3, ?_⟩
    · unfold shld
      rw [bind_ok (hdr_ok hm.1), if_neg hz]
      dsimp only
      rw [if_neg (by omega), chk_pure, h1]
    · rw [h4, over_length (by simp; omega)]

theorem holds_len_upd {o : Obj} {m m' : Mpi} (hm : o.Holds m) {c : List (Option Nat)} (hc : c.length = o.cells.length)
    (hp : m'.digs.map some <+: c) {h : Hdr} (hh : h = ⟨m'.neg, m'.digs.length, o.cells.length⟩) : (o.upd h c).Holds m' := by
  subst hh; exact holds_upd hm hc hp

theorem over_snoc {c : List (Option Nat)} {L : List Nat} {d : Nat} (h : L.length < c.length) :
    (over c 0 L).set L.length (some d) = over c 0 (L ++ [d]) := by
  unfold over
  simp only [List.take_zero, List.nil_append, Nat.zero_add, List.map_append, List.length_append, List.length_singleton,
    List.append_assoc]
  rw [List.set_append_right _ _ (by simp), List.length_map, Nat.sub_self, List.drop_eq_getElem_cons h]
  rfl

/-- Shifting by less than a digit, in place, with room for one more digit. -/
theorem shlBits_run {sp w d : Nat} {s : St} {c : Nat} {m : Mpi} (hm : (s.obj c).Holds m)
    (hroom : m.digs.length + 1 ≤ (s.obj c).cells.length) :
    ∃ s', shlBits w d c s = .ok ((), s') ∧ Step sp s s' c ∧ (s'.obj c).Holds ⟨m.neg, Mpi.shlBits w d m.digs 0⟩ ∧
      (s'.obj c).cells.length = (s.obj c).cells.length := by
  have sm := Obj.Reads.seg hm.reads
  have hl := shlRun_length w d m.digs 0
  have hl1 : (over (s.obj c).cells 0 (shlRun w d m.digs 0).1).length = (s.obj c).cells.length := over_length (by omega)
  unfold shlBits
  rw [bind_ok (hdr_ok hm.1), bind_ok (shlLoop_ok w d c _ m.digs 0 0 s hm.1 sm (by omega)), shlRun_bits]
  by_cases hr : (shlRun w d m.digs 0).2 ≠ 0
  · rw [if_pos hr, if_pos hr, bind_ok (wr_ok (by rw [upd_obj_same]; rfl) _ (by rw [upd_obj_same, cells_upd hl1, hl1]; dsimp only; omega)),
      setUsed_ok (by rw [upd_obj_same]; rfl)]
    simp only [upd_upd, upd_obj_same, cells_upd hl1]
    have hset : (over (s.obj c).cells 0 (shlRun w d m.digs 0).1).set m.digs.length (some (shlRun w d m.digs 0).2) =
        over (s.obj c).cells 0 ((shlRun w d m.digs 0).1 ++ [(shlRun w d m.digs 0).2]) := by
      rw [← over_snoc (by omega), hl]
    have hl2 : (over (s.obj c).cells 0 ((shlRun w d m.digs 0).1 ++ [(shlRun w d m.digs 0).2])).length = (s.obj c).cells.length :=
      over_length (by simp; omega)
    rw [hset, cells_upd hl2]
    refine ⟨_, rfl, Step.upd _ _ _ _ _, ?_, ?_⟩
    · rw [upd_obj_same]
      exact holds_len_upd hm hl2 over_seg0 (by simp [hl])
    · rw [upd_obj_same, cells_upd hl2, hl2]
  · rw [if_neg hr, if_neg hr, List.append_nil]
    refine ⟨_, rfl, Step.upd _ _ _ _ _, ?_, ?_⟩
    · rw [upd_obj_same]
      exact holds_len_upd hm hl1 over_seg0 (by simp [hl])
    · rw [upd_obj_same, cells_upd hl1, hl1]

theorem adjust_run {sp : Nat} {s : St} {r : Nat} {m : Mpi} (hm : (s.obj r).Holds m) :
    ∃ s', adjust r s = .ok ((), s') ∧ Step sp s s' r ∧ (s'.obj r).Holds ⟨m.neg, Mpi.adjust m.digs⟩ ∧
      (s'.obj r).cells = (s.obj r).cells := by
  refine ⟨_, adjust_ok hm.1 rfl (Obj.Reads.seg hm.reads), Step.upd _ _ _ _ _, ?_, ?_⟩
  · rw [upd_obj_same]
    refine holds_upd (m' := ⟨m.neg, Mpi.adjust m.digs⟩) hm rfl (List.IsPrefix.trans ?_ hm.2.1)
    exact (adjust_prefix _).map some
  · rw [upd_obj_same, cells_upd rfl]

/-- The part of `cry_mpi_shl` after the copy. -/
theorem shl_tail {sp w : Nat} {s : St} {c : Nat} {m : Mpi} {n : Nat} (hm : HoldsC m n (s.obj c)) {k : Nat} (hw : 0 < w)
    (hk : k ≠ 0) (hm0 : m.digs ≠ []) :
    Leaf sp s c (chk (if (s.obj c).cells.length < m.digs.length + k / w + 1 then grow c (m.digs.length + k / w + 1) else pure 0) <|
      chk (if k ≥ w then shld c (k / w) else pure 0) do
        if k % w ≠ 0 then shlBits w (k % w) c
        adjust c
        pure 0) (HoldsC (Mpi.shl w m k) n) (HoldsC m n) := by
  refine ensure_run (sp := sp) (s := s) (r := c) hm.1 (m.digs.length + k / w + 1) rfl (fun _ => hm) ?_
  intro s1 hg
  have hh := hg.holds hm.1
  have hroom := hg.room
  have hn : n ≤ (s1.obj c).cells.length := by
    obtain ⟨q, hq⟩ := hg.cells
    rw [hq]; simp; have := hm.2; omega
  -- whole digits
  have h2 : ∃ s2, (if k ≥ w then shld c (k / w) else pure 0 : M Int) s1 = .ok (0, s2) ∧ Step sp s1 s2 c ∧
      (s2.obj c).Holds (if k ≥ w then Mpi.shld m (k / w) else m) ∧ (s2.obj c).cells.length = (s1.obj c).cells.length := by
    by_cases hkw : k ≥ w
    · rw [if_pos hkw, if_pos hkw]
      exact shld_room hh _ (by omega)
    · rw [if_neg hkw, if_neg hkw]
      exact ⟨s1, rfl, Step.refl _ _ _, hh, rfl⟩
  obtain ⟨s2, e2, st2, h2, l2⟩ := h2
  generalize hm2 : (if k ≥ w then Mpi.shld m (k / w) else m) = m2 at h2
  have hlen2 : m2.digs.length ≤ m.digs.length + k / w := by
    rw [← hm2]
    have := Nat.zero_le (k / w)
    by_cases hkw : k ≥ w
    · rw [if_pos hkw]; unfold Mpi.shld
      split
      · omega
      · simp; omega
    · rw [if_neg hkw]; omega
  have h3 : ∃ s3, (if k % w ≠ 0 then shlBits w (k % w) c else pure () : M Unit) s2 = .ok ((), s3) ∧ Step sp s2 s3 c ∧
      (s3.obj c).Holds (if k % w ≠ 0 then ⟨m2.neg, Mpi.shlBits w (k % w) m2.digs 0⟩ else m2) ∧
      (s3.obj c).cells.length = (s2.obj c).cells.length := by
    by_cases hkw : k % w ≠ 0
    · rw [if_pos hkw, if_pos hkw]
      exact shlBits_run h2 (by omega)
    · rw [if_neg hkw, if_neg hkw]
      exact ⟨s2, rfl, Step.refl _ _ _, h2, rfl⟩
  obtain ⟨s3, e3, st3, h3, l3⟩ := h3
  obtain ⟨s4, e4, st4, h4, l4⟩ := adjust_run (sp := sp) h3
  refine ⟨s4, ?_, (st2.trans st3).trans st4, ⟨?_, ?_⟩⟩
  · rw [chk_ok e2]
    by_cases hkw : k % w ≠ 0
    · rw [if_pos hkw] at e3 ⊢
      rw [bind_ok e3]; dsimp only; rw [bind_ok e4]; rfl
    · rw [if_neg hkw] at e3 ⊢
      cases e3
      dsimp only; rw [bind_ok e4]; rfl
  · have : Mpi.shl w m k = ⟨(if k % w ≠ 0 then (⟨m2.neg, Mpi.shlBits w (k % w) m2.digs 0⟩ : Mpi) else m2).neg,
        Mpi.adjust (if k % w ≠ 0 then (⟨m2.neg, Mpi.shlBits w (k % w) m2.digs 0⟩ : Mpi) else m2).digs⟩ := by
      unfold Mpi.shl
      rw [if_neg (by simp [hk, hm0])]
      dsimp only
      rw [hm2]
    rw [this]; exact h4
  · rw [l4, l3, l2]; exact hn

theorem shl_run {sp w : Nat} {s : St} {c a : Nat} {mc m : Mpi} {n : Nat} (hc : HoldsC mc n (s.obj c))
    (ha : (s.obj a).Reads m) (hw : 0 < w) (k : Nat) (hsp : a < sp) :
    Leaf sp s c (shl w c a k) (HoldsC (Mpi.shl w m k) n) (fun o => HoldsC mc n o ∨ HoldsC m n o) := by
  have key : Leaf sp s c (if a ≠ c then copy c a else pure 0) (HoldsC m n) (HoldsC mc n) := by
    by_cases h : a ≠ c
    · rw [if_pos h]; exact copy_run hc ha (Ne.symm h)
    · rw [if_neg h]
      rw [not_not] at h; subst h
      have := same_num hc.1.reads ha; subst this
      exact ⟨0, s, rfl, Step.refl _ _ _, Or.inl ⟨rfl, hc⟩⟩
  obtain ⟨st, s1, h1, h2, h3⟩ := key
  unfold shl
  rcases h3 with ⟨rfl, h⟩ | ⟨rfl, hf, h⟩
  · have ha1 : (s1.obj a).Reads m := by
      by_cases hac : a = c
      · subst hac; exact h.1.reads
      · rw [h2.frame a hsp hac]; exact ha
    obtain ⟨aa, ha1, ha2⟩ := ha1
    by_cases hz : k = 0 ∨ m.digs.length = 0
    · refine ⟨0, s1, ?_, h2, Or.inl ⟨rfl, ?_⟩⟩
      · rw [chk_ok h1, bind_ok (hdr_ok ha1), if_pos hz]; rfl
      · unfold Mpi.shl
        rw [if_pos (by rcases hz with h | h; exact Or.inl h; exact Or.inr (List.eq_nil_of_length_eq_zero h))]
        exact h
    · obtain ⟨st, s', e1, e2, e3⟩ := shl_tail (sp := sp) (w := w) h hw (k := k) (fun h => hz (Or.inl h))
        (fun h => hz (Or.inr (by simp [h])))
      refine ⟨st, s', ?_, h2.trans e2, ?_⟩
      · rw [chk_ok h1, bind_ok (hdr_ok ha1), if_neg hz, bind_ok (hdr_ok h.1.1)]; exact e1
      · rcases e3 with e | ⟨a, f, e⟩
        · exact Or.inl e
        · exact Or.inr ⟨a, f.pre h2.tick h2.fails, Or.inr e⟩
  · exact ⟨-1, s1, chk_fail h1 (by decide), h2, Or.inr ⟨rfl, hf, Or.inl h⟩⟩

theorem shrd_run {sp : Nat} {s : St} {a : Nat} {m : Mpi} {n : Nat} (hm : HoldsC m n (s.obj a)) (k : Nat) :
    ∃ s', shrd a k s = .ok (0, s') ∧ Step sp s s' a ∧ HoldsC (Mpi.shrd m k) n (s'.obj a) := by
  unfold shrd Mpi.shrd
  rw [bind_ok (hdr_ok hm.1.1)]
  dsimp only
  have e : (k = 0 ∨ m.digs = []) ↔ (k = 0 ∨ m.digs.length = 0) := by rw [List.length_eq_zero_iff]
  simp only [e]
  by_cases hz : k = 0 ∨ m.digs.length = 0
  · rw [if_pos hz, if_pos hz]
    exact ⟨s, rfl, Step.refl _ _ _, hm⟩
  · rw [if_neg hz, if_neg hz]
    by_cases hl : m.digs.length ≤ k
    · rw [if_pos hl, if_pos hl]
      refine ⟨_, by rw [bind_ok (zero_ok hm.1.1)]; rfl, Step.upd _ _ _ _ _, ?_⟩
      rw [upd_obj_same]
      exact ⟨holds_upd (m' := ⟨false, []⟩) hm.1 rfl List.nil_prefix, by rw [cells_upd rfl]; exact hm.2⟩
    · rw [if_neg hl, if_neg hl]
      have sm := Obj.Reads.seg hm.1.reads
      have hlen := hm.1.len
      have sd : Seg s a (k + 0) (m.digs.drop k) := by
        unfold Seg at *
        obtain ⟨t, ht⟩ := sm
        rw [List.drop_zero] at ht
        refine ⟨t, ?_⟩
        rw [← ht, Nat.add_zero, List.drop_append_of_le_length (by simp; omega), List.map_drop]
      have hdl : (m.digs.drop k).length = m.digs.length - k := by simp
      have h1 := shrdLoop_ok a k _ (m.digs.drop k) 0 s hm.1.1 sd (by rw [hdl]; omega) (by omega)
      rw [hdl] at h1
      have hl1 : (over (s.obj a).cells 0 (m.digs.drop k)).length = (s.obj a).cells.length := over_length (by rw [hdl]; omega)
      rw [bind_ok h1, bind_ok (zeroLoop_ok a _ k (m.digs.length - k) _ (by rw [upd_obj_same]; rfl)
        (by rw [upd_obj_same, cells_upd hl1, hl1]; omega))]
      simp only [upd_upd, upd_obj_same, cells_upd hl1]
      have hl2 : (over (over (s.obj a).cells 0 (m.digs.drop k)) (m.digs.length - k) (List.replicate k 0)).length =
          (s.obj a).cells.length := by rw [over_length (by rw [hl1]; simp; omega), hl1]
      rw [bind_ok (setUsed_ok (by rw [upd_obj_same]; rfl) _)]
      simp only [upd_upd, upd_obj_same, cells_upd hl2]
      refine ⟨_, rfl, Step.upd _ _ _ _ _, ?_⟩
      rw [upd_obj_same]
      refine ⟨holds_len_upd (m' := ⟨m.neg, m.digs.drop k⟩) hm.1 hl2 ?_ (by simp), by rw [cells_upd hl2, hl2]; exact hm.2⟩
      unfold over
      simp only [List.take_zero, List.nil_append, Nat.zero_add, List.append_assoc]
      rw [List.take_append_of_le_length (by simp), List.take_of_length_le (by simp)]
      exact List.prefix_append _ _

theorem shr_tail {sp w : Nat} {s : St} {c : Nat} {m : Mpi} {n : Nat} (hm : HoldsC m n (s.obj c)) {k : Nat}
    (hk : k ≠ 0) (hm0 : m.digs ≠ []) :
    ∃ s', (do
      if k ≥ w then
        let _ ← shrd c (k / w)
      if k % w ≠ 0 then shrLoop w (k % w) c (← hdr c).used 0
      adjust c
      pure 0 : M Int) s = .ok (0, s') ∧ Step sp s s' c ∧ HoldsC (Mpi.shr w m k) n (s'.obj c) := by
  have h2 : ∃ s2, (if k ≥ w then (do let _ ← shrd c (k / w)) else pure () : M Unit) s = .ok ((), s2) ∧ Step sp s s2 c ∧
      HoldsC (if k ≥ w then Mpi.shrd m (k / w) else m) n (s2.obj c) := by
    by_cases hkw : k ≥ w
    · rw [if_pos hkw, if_pos hkw]
      obtain ⟨s2, e1, e2, e3⟩ := shrd_run (sp := sp) hm (k / w)
      exact ⟨s2, by rw [bind_ok e1]; rfl, e2, e3⟩
    · rw [if_neg hkw, if_neg hkw]
      exact ⟨s, rfl, Step.refl _ _ _, hm⟩
  obtain ⟨s2, e2, st2, h2⟩ := h2
  generalize hm2 : (if k ≥ w then Mpi.shrd m (k / w) else m) = m2 at h2
  have h3 : ∃ s3, (if k % w ≠ 0 then (do shrLoop w (k % w) c (← hdr c).used 0) else pure () : M Unit) s2 = .ok ((), s3) ∧
      Step sp s2 s3 c ∧ HoldsC (if k % w ≠ 0 then ⟨m2.neg, (Mpi.shrBits w (k % w) m2.digs).1⟩ else m2) n (s3.obj c) := by
    by_cases hkw : k % w ≠ 0
    · rw [if_pos hkw, if_pos hkw]
      have hl : (over (s2.obj c).cells 0 (Mpi.shrBits w (k % w) m2.digs).1).length = (s2.obj c).cells.length :=
        over_length (by rw [shrBits_length]; have := h2.1.len; omega)
      refine ⟨_, by rw [bind_ok (hdr_ok h2.1.1)]; exact shrLoop_ok w (k % w) c _ m2.digs 0 s2 h2.1.1 (Obj.Reads.seg h2.1.reads),
        Step.upd _ _ _ _ _, ?_⟩
      rw [upd_obj_same, shrRun_zero]
      exact ⟨holds_len_upd (m' := ⟨m2.neg, (Mpi.shrBits w (k % w) m2.digs).1⟩) h2.1 hl over_seg0 (by simp [shrBits_length]),
        by rw [cells_upd hl, hl]; exact h2.2⟩
    · rw [if_neg hkw, if_neg hkw]
      exact ⟨s2, rfl, Step.refl _ _ _, h2⟩
  obtain ⟨s3, e3, st3, h3⟩ := h3
  obtain ⟨s4, e4, st4, h4, l4⟩ := adjust_run (sp := sp) h3.1
  refine ⟨s4, ?_, (st2.trans st3).trans st4, ⟨?_, ?_⟩⟩
  · have tail : (do
          if k % w ≠ 0 then shrLoop w (k % w) c (← hdr c).used 0
          adjust c
          pure 0 : M Int) s2 = .ok (0, s4) := by
      by_cases hkw : k % w ≠ 0
      · rw [if_pos hkw] at e3
        simp only [if_pos hkw]
        rw [bind_ok (hdr_ok h2.1.1)] at e3 ⊢
        rw [bind_ok e3, bind_ok e4]; rfl
      · rw [if_neg hkw] at e3
        simp only [if_neg hkw]
        cases e3
        rw [bind_ok e4]; rfl
    by_cases hkw : k ≥ w
    · rw [if_pos hkw] at e2
      simp only [if_pos hkw]
      obtain ⟨s2', e1, -, -⟩ := shrd_run (sp := sp) hm (k / w)
      rw [bind_ok e1] at e2 ⊢
      cases e2
      exact tail
    · rw [if_neg hkw] at e2
      simp only [if_neg hkw]
      cases e2
      exact tail
  · have : Mpi.shr w m k = ⟨(if k % w ≠ 0 then (⟨m2.neg, (Mpi.shrBits w (k % w) m2.digs).1⟩ : Mpi) else m2).neg,
        Mpi.adjust (if k % w ≠ 0 then (⟨m2.neg, (Mpi.shrBits w (k % w) m2.digs).1⟩ : Mpi) else m2).digs⟩ := by
      unfold Mpi.shr
      rw [if_neg (by simp [hk, hm0])]
      dsimp only
      rw [hm2]
    rw [this]; exact h4
  · rw [l4]; exact h3.2

theorem shr_run {sp w : Nat} {s : St} {c a : Nat} {mc m : Mpi} {n : Nat} (hc : HoldsC mc n (s.obj c))
    (ha : (s.obj a).Reads m) (k : Nat) (hsp : a < sp) :
    Leaf sp s c (shr w c a k) (HoldsC (Mpi.shr w m k) n) (HoldsC mc n) := by
  have key : Leaf sp s c (if a ≠ c then copy c a else pure 0) (HoldsC m n) (HoldsC mc n) := by
    by_cases h : a ≠ c
    · rw [if_pos h]; exact copy_run hc ha (Ne.symm h)
    · rw [if_neg h]
      rw [not_not] at h; subst h
      have := same_num hc.1.reads ha; subst this
      exact ⟨0, s, rfl, Step.refl _ _ _, Or.inl ⟨rfl, hc⟩⟩
  obtain ⟨st, s1, h1, h2, h3⟩ := key
  unfold shr
  rcases h3 with ⟨rfl, h⟩ | ⟨rfl, hf, h⟩
  · have ha1 : (s1.obj a).Reads m := by
      by_cases hac : a = c
      · subst hac; exact h.1.reads
      · rw [h2.frame a hsp hac]; exact ha
    obtain ⟨aa, ha1, ha2⟩ := ha1
    by_cases hz : k = 0 ∨ m.digs.length = 0
    · refine ⟨0, s1, ?_, h2, Or.inl ⟨rfl, ?_⟩⟩
      · rw [chk_ok h1, bind_ok (hdr_ok ha1), if_pos hz]; rfl
      · unfold Mpi.shr
        rw [if_pos (by rcases hz with h | h; exact Or.inl h; exact Or.inr (List.eq_nil_of_length_eq_zero h))]
        exact h
    · obtain ⟨s', e1, e2, e3⟩ := shr_tail (sp := sp) (w := w) h (k := k) (fun h => hz (Or.inl h))
        (fun h => hz (Or.inr (by simp [h])))
      refine ⟨0, s', ?_, h2.trans e2, Or.inl ⟨rfl, e3⟩⟩
      rw [chk_ok h1, bind_ok (hdr_ok ha1), if_neg hz]; exact e1
  · exact ⟨-1, s1, chk_fail h1 (by decide), h2, Or.inr ⟨rfl, hf, h⟩⟩

end Verif.Mem
