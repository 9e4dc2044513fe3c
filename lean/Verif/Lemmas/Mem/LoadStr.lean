import Verif.Lemmas.Mem.Print
/-! String import in memory. -/
namespace Verif.Mem
open Verif.Mpi (Mpi Norm WF val DigitWidth ascToRaw NatRep)
open Verif (withSign Byte IsNumeral IsDigit numeral numeralFrom digitValue beVal)

variable {w : Nat}

/-! ### Hexadecimal strings -/

theorem hexPairs_ok : ∀ (cs : List Byte) (i : Nat) (bin : Buf) (s : St), cs.length % 2 = 0 → i + cs.length / 2 ≤ bin.length →
    hexPairs i bin cs s = .ok ((i + (Mpi.hexPairs cs).length, overB bin i (Mpi.hexPairs cs)), s)
  | [], i, bin, s, _, _ => by
    rw [Mpi.hexPairs, overB_nil]
    · rfl
    · intro _ _ _ h; cases h
  | [c], _, _, _, h, _ => by simp at h
  | c :: c' :: cs, i, bin, s, h, hl => by
    simp only [List.length_cons] at h hl
    have hi : i < bin.length := by omega
    rw [hexPairs, bind_ok (put_ok _ hi s), bind_ok (get_ok (v := BitVec.ofNat 8 (ascToRaw c <<< 4)) (by simp [hi]) s), bind_ok (put_ok _ (by simpa using hi) s),
      List.set_set]
    rw [hexPairs_ok cs (i + 1) _ s (by omega) (by simp; omega), Mpi.hexPairs, overB_cons hi, List.length_cons]
    rw [show i + 1 + (Mpi.hexPairs cs).length = i + ((Mpi.hexPairs cs).length + 1) by omega]

theorem hexPairs_length : ∀ (cs : List Byte), cs.length % 2 = 0 → (Mpi.hexPairs cs).length = cs.length / 2
  | [], _ => rfl
  | [c], h => by simp at h
  | c :: c' :: cs, h => by
    simp only [List.length_cons] at h
    rw [Mpi.hexPairs, List.length_cons, hexPairs_length cs (by omega), List.length_cons, List.length_cons]
    omega

theorem overB_all {b : Buf} {L : List Byte} (h : b.length = L.length) : overB b 0 L = L.map some := by
  unfold overB
  rw [List.drop_eq_nil_of_le (by omega)]; simp

theorem getAll_ok {b : Buf} (s : St) : ∀ (L : List Byte) (i : Nat), (∀ k, k < L.length → b[i + k]? = some (L[k]?)) →
    getAll b L.length i s = .ok (L, s)
  | [], _, _ => rfl
  | c :: L, i, h => by
    rw [List.length_cons, getAll, bind_ok (get_ok (v := c) (by simpa using h 0 (by simp)) s),
      bind_ok (getAll_ok s L (i + 1) (fun k hk => by
        have := h (k + 1) (by simpa using hk)
        rw [show i + 1 + k = i + (k + 1) by omega, this]; simp))]
    rfl

/-- The bytes of a hexadecimal string. -/
theorem hexBytes_ok (cs : List Byte) (s : St) : ∃ bs, hexBytes cs s = .ok ((bs.length, bs.map some), s) ∧
    ((∀ c ∈ cs, IsDigit 16 c) → beVal bs = numeral 16 cs) := by
  unfold hexBytes
  by_cases h : cs.length % 2 ≠ 0
  · rw [if_pos h]
    match cs with
    | [] => simp at h
    | c :: cs =>
      rw [List.length_cons] at h
      refine ⟨BitVec.ofNat 8 (ascToRaw c) :: Mpi.hexPairs cs, ?_, fun hd => ?_⟩
      · dsimp only
        rw [bind_ok (put_ok _ (by simp) s), hexPairs_ok cs 1 _ s (by omega) (by simp; omega)]
        rw [show (1 : Nat) = 0 + 1 from rfl, overB_cons (by simp), overB_all (by
          rw [List.length_replicate, List.length_cons, List.length_cons, hexPairs_length cs (by omega)]; omega)]
        rw [List.length_cons, Nat.zero_add, Nat.add_comm]
      · obtain ⟨d, hd1, hdr⟩ := hd c (by simp)
        unfold numeral
        rw [numeralFrom, Mpi.hexPairs_spec cs _ (by omega) (fun x hx => hd x (by simp [hx]))]
        rw [Mpi.ascToRaw_of hd1, beVal, hd1, BitVec.toNat_ofNat, Nat.mod_eq_of_lt (by omega)]
        simp
  · rw [if_neg h]
    refine ⟨Mpi.hexPairs cs, ?_, fun hd => ?_⟩
    · rw [hexPairs_ok cs 0 _ s (by omega) (by simp), overB_all (by rw [hexPairs_length cs (by omega)]; simp), Nat.zero_add]
    · unfold numeral
      rw [Mpi.hexPairs_spec cs 0 (by omega) hd]
      simp

/-- `load_str_hex` into an object that holds no negative number. -/
theorem loadStrHex_leaf (hw : DigitWidth w) {sp a n : Nat} {s : St} {z : Int} (ha : V w z n (s.obj a)) (hz : 0 ≤ z) (cs : List Byte) (hs : ∀ c ∈ cs, IsDigit 16 c) :
    Leaf sp s a (loadStrHex w a cs) (V w (numeral 16 cs : Nat) n) (· = s.obj a) := by
  unfold loadStrHex
  by_cases hf : s.fails s.tick = true
  · refine ⟨-1, { s with tick := s.tick + 1 }, ?_, ⟨fun _ _ _ => rfl, rfl, rfl, Nat.le_succ _⟩, Or.inr ⟨rfl, ⟨s.tick, Nat.le_refl _, Nat.lt_succ_self _, hf⟩, rfl⟩⟩
    rw [bind_ok (a := false) (s' := { s with tick := s.tick + 1 }) (by unfold request; rw [if_pos hf])]
    rfl
  · rw [Bool.not_eq_true] at hf
    generalize hs1 : ({ s with tick := s.tick + 1, live := s.live + 1 } : St) = s1
    have o1 : ∀ v, s1.obj v = s.obj v := fun v => by rw [← hs1]
    obtain ⟨bs, b1, b2⟩ := hexBytes_ok cs s1
    obtain ⟨m, m1, m2, m3⟩ := id ha
    obtain ⟨st, s2, e2, t2, h2⟩ := loadBin_leaf hw (sp := sp) (x := a) (s := s1) (n := n) (mx := m) (by rw [o1]; exact m3) bs
    have hneg : m.neg = false := by
      rw [← Bool.not_eq_true, Mpi.neg_iff_of_wf m1]; omega
    refine ⟨st, { s2 with live := s2.live - 1 }, ?_, ⟨fun v hv hv' => ?_, ?_, ?_, ?_⟩, ?_⟩
    · rw [bind_ok (a := true) (s' := s1) (by unfold request; rw [if_neg (by rw [hf]; decide), ← hs1]), if_pos rfl, bind_ok b1]
      dsimp only
      rw [bind_ok (getAll_ok s1 bs 0 (fun k hk => by simp [hk])), bind_ok e2]
      rfl
    · exact (t2.frame v hv hv').trans (o1 v)
    · have := t2.live
      rw [o1, ← hs1] at this
      dsimp only at this ⊢
      omega
    · show s2.fails = s.fails
      rw [t2.fails, ← hs1]
    · have := t2.tick
      rw [← hs1] at this
      exact Nat.le_of_succ_le this
    · rcases h2 with ⟨e, h2⟩ | ⟨e, ⟨k, f1, f2, f3⟩, h2⟩
      · refine Or.inl ⟨e, _, ?_, ?_, h2⟩
        · obtain ⟨g1, g2, g3, g4⟩ := Mpi.loadBin_spec hw m.neg bs
          rw [hneg] at g1 g3 ⊢
          exact Mpi.wf_of_norm_false g1 g3
        · obtain ⟨g1, g2, g3, g4⟩ := Mpi.loadBin_spec hw m.neg bs
          rw [hneg] at g2 g3 ⊢
          rw [Mpi.toInt_false g3, g2, b2 hs]
      · refine Or.inr ⟨e, ⟨k, ?_, f2, ?_⟩, by rw [← o1]; exact h2⟩
        · rw [← hs1] at f1; exact Nat.le_of_succ_le f1
        · rw [← hs1] at f3; exact f3

/-! ### The digit loop -/

theorem add_same {sp b : Nat} {s : St} {r x y : Nat} {mr mx my : Mpi} {n : Nat} (hr : HoldsC mr n (s.obj r))
    (hx : (s.obj x).Reads mx) (hy : (s.obj y).Reads my) (hs : mx.neg = my.neg) :
    ∃ m, Mpi.add b mx my = some m ∧ Leaf sp s r (add b r x y) (HoldsC m n) (HoldsC mr n) := by
  have hx0 := hx; have hy0 := hy
  obtain ⟨ax, hx1, hx2⟩ := hx
  obtain ⟨ay, hy1, hy2⟩ := hy
  unfold Mpi.add
  have e : add b r x y s = signed (addAbs b r x y) r mx.neg s := by
    unfold add
    rw [bind_ok (hdr_ok hx1), bind_ok (hdr_ok hy1)]
    dsimp only
    rw [if_pos hs]
  rw [if_pos hs]
  refine ⟨_, rfl, Leaf.congr ?_ e⟩
  have := (addAbs_run (sp := sp) (b := b) hr hx0 hy0).mono (g' := fun o => HoldsC (Mpi.addAbs b mx my) n o ∧ True)
    (fun o h => ⟨h, trivial⟩) (fun _ h => h)
  exact (setSign_leaf this mx.neg (fun _ _ _ => trivial)).mono (fun o h => h.1) (fun _ h => h)

/-- A single digit, zero allowed if the other number is not zero. -/
theorem add_digit (hw : 8 ≤ w) {sp a t d : Nat} {s : St} {A : Nat} (ha : V w (A : Int) 0 (s.obj a)) (ht : (s.obj t).Reads ⟨false, [d]⟩) (hd : d < 256)
    (hz : d = 0 → A ≠ 0) : Leaf sp s a (add (2 ^ w) a a t) (V w ((A + d : Nat) : Int) 0) (V w (A : Int) 0) := by
  by_cases h0 : d = 0
  · obtain ⟨m, m1, m2, m3⟩ := id ha
    have hm := NatRep.of_wf m1 m2
    subst h0
    obtain ⟨m', e, h⟩ := add_same (sp := sp) (b := 2 ^ w) m3 m3.1.reads ht hm.neg
    have hne : m.digs ≠ [] := fun e => hz rfl (hm.digs_nil_iff.1 e)
    refine h.mono (fun o ho => ⟨m', ?_⟩) (fun o ho => ⟨m, m1, m2, ho⟩)
    obtain ⟨g, ds⟩ := m
    have hg : g = false := hm.neg
    subst hg
    cases ds with
    | nil => exact absurd rfl hne
    | cons c cs =>
      rw [Mpi.add_zero_digit m1.digits] at e
      cases e
      exact ⟨m1, m2, ho⟩
  · have hs : (s.obj t).Shows w (d : Int) := ⟨⟨false, [d]⟩, (NatRep.digit hw hd h0).wf, (NatRep.digit hw hd h0).toInt, ht⟩
    have := add_leaf (sp := sp) (by omega) ha ha.shows hs
    rwa [← Nat.cast_add] at this

/-- `tmp`, `base` and the number being read. -/
def Ld (w : Nat) (s0 : St) (sp a radix : Nat) (P : Obj → Prop) : Env := fun v =>
  if v < sp then (if v = a then P else fun o => o = s0.obj v)
  else if v = sp then fun o => ∃ d, HoldsC ⟨false, [d]⟩ 0 o else V w (radix : Int) 0

theorem Ld.up {s0 : St} {sp a radix S : Nat} {P Q : Obj → Prop} (has : a < sp) : Le S (Function.update (Ld w s0 sp a radix P) a Q) (Ld w s0 sp a radix Q) := by
  intro v _ o ho
  by_cases hv : v = a
  · subst hv; rw [Function.update_self] at ho; unfold Ld; rw [if_pos has, if_pos rfl]; exact ho
  · rw [Function.update_of_ne hv] at ho
    unfold Ld at ho ⊢
    split_ifs at ho ⊢ <;> first | exact ho | contradiction

theorem Ld.le {s0 : St} {sp a radix S : Nat} {P Q : Obj → Prop} (h : ∀ o, P o → Q o) : Le S (Ld w s0 sp a radix P) (Ld w s0 sp a radix Q) := by
  intro v _ o ho
  unfold Ld at ho ⊢
  split_ifs at ho ⊢
  · exact h _ ho
  all_goals exact ho

theorem digitsLoop_run (hw : DigitWidth w) {K : Ctx} {s0 : St} {sp a radix : Nat} (has : a < sp) (hr : 2 ≤ radix) (hr' : radix ≤ 36) {rest : List Byte}
    (hrest : ∀ c cs, rest = c :: cs → radix ≤ ascToRaw c) :
    ∀ (ds : List Byte) (A : Nat) (s : St), (∀ c ∈ ds, IsDigit radix c) → (A = 0 → ds.head? ≠ some 48#8) →
      At K (Ld w s0 sp a radix (V w (A : Int) 0)) (sp + 2) s →
      WP (digitsLoop w (sp + 2) a radix sp (sp + 1) (ds ++ rest)) (fun r s' =>
        (r = rest ∧ At K (Ld w s0 sp a radix (V w (numeralFrom radix A ds : Nat) 0)) (sp + 2) s') ∨
        (r ≠ [] ∧ Bad K s' ∧ At K (Ld w s0 sp a radix (fun o => ∃ z, R w z 0 o)) (sp + 2) s')) s
  | [], A, s, _, _, h => by
    rw [List.nil_append]
    cases hc : rest with
    | nil => exact WP.pure (Or.inl ⟨rfl, h⟩)
    | cons c cs =>
      rw [digitsLoop, if_pos (hrest c cs hc)]
      exact WP.pure (Or.inl ⟨rfl, h⟩)
  | c :: ds, A, s, hd, hz, h => by
    have hw8 := hw.pos
    obtain ⟨d, hd1, hd2⟩ := hd c (by simp)
    rw [List.cons_append, digitsLoop, Mpi.ascToRaw_of hd1, if_neg (by omega)]
    have ht := h.objs sp (by omega)
    unfold Ld at ht
    rw [if_neg (by omega), if_pos rfl] at ht
    obtain ⟨d0, ht⟩ := ht
    obtain ⟨s1, e1, t1, v1⟩ := wr_run (S := sp + 2) (k := 0) (d := d) ht (by simp)
    refine WP.bind_run e1 ?_
    have h1 : At K (Ld w s0 sp a radix (V w (A : Int) 0)) (sp + 2) s1 := (step_at h (by omega) t1 (P := HoldsC ⟨false, [d]⟩ 0) v1).le fun v hv o ho => by
      by_cases hv' : v = sp
      · subst hv'; rw [Function.update_self] at ho; unfold Ld; rw [if_neg (by omega), if_pos rfl]; exact ⟨d, ho⟩
      · rwa [Function.update_of_ne hv'] at ho
    have va := h1.objs a (by omega)
    have vb := h1.objs (sp + 1) (by omega)
    unfold Ld at va vb
    rw [if_pos has, if_pos rfl] at va
    rw [if_neg (by omega), if_neg (by omega)] at vb
    obtain ⟨st, s2, e2, h2⟩ := leaf_at h1 (by omega) (mul_leaf hw8 (sp := sp + 2) va.r va.rs vb.rs (by omega) (by omega) (by omega) (Or.inl rfl))
    have v2 : (s2.obj sp).Reads ⟨false, [d]⟩ ∨ st ≠ 0 := by
      obtain ⟨st', s2', e2', t2', -⟩ := mul_leaf hw8 (sp := sp + 2) va.r va.rs vb.rs (by omega) (by omega) (by omega) (Or.inl rfl)
      rw [e2] at e2'
      cases e2'
      rw [t2'.frame sp (by omega) (by omega)]
      exact Or.inl v1.1.reads
    refine WP.bind_run e2 ?_
    rcases h2 with ⟨rfl, h2⟩ | ⟨rfl, f, h2⟩
    · rw [if_neg (by decide)]
      have v2 := v2.resolve_right (by simp)
      have h2 := h2.le (Ld.up has)
      have va := h2.objs a (by omega)
      unfold Ld at va
      rw [if_pos has, if_pos rfl, ← Nat.cast_mul] at va
      have hA : d = 0 → A ≠ 0 := fun e hA => hz hA (by
        subst e; rw [Mpi.digit_zero hd1]; rfl)
      obtain ⟨st, s3, e3, h3⟩ := leaf_at h2 (by omega) (add_digit hw8 (sp := sp + 2) va v2 (by omega) (fun e => Nat.mul_ne_zero (hA e) (by omega)))
      refine WP.bind_run e3 ?_
      rcases h3 with ⟨rfl, h3⟩ | ⟨rfl, f, h3⟩
      · rw [if_neg (by decide)]
        have := digitsLoop_run hw has hr hr' hrest ds (A * radix + d) s3 (fun c hc => hd c (by simp [hc])) (fun e => by
          exfalso
          have := Nat.eq_zero_of_add_eq_zero_left e
          rcases Nat.mul_eq_zero.1 (Nat.eq_zero_of_add_eq_zero_right e) with h | h
          · exact hA this h
          · omega) (h3.le (Ld.up has))
        rwa [numeralFrom, hd1]
      · rw [if_pos (by decide)]
        exact WP.pure (Or.inr ⟨by simp, f, h3.le ((Ld.up has).trans (Ld.le fun o ho => ⟨_, ho.r⟩))⟩)
    · rw [if_pos (by decide)]
      exact WP.pure (Or.inr ⟨by simp, f, h2.le (Ld.up has)⟩)

/-! ### The whole function -/

theorem initInt_leaf (hw : DigitWidth w) {S a : Nat} {s : St} {v : Int} (ho : (s.obj a).owns = 0) (hv : v.natAbs < 2 ^ 63) :
    Leaf S s a (initInt w a v) (V w v 8) Null := by
  have hw0 : 0 < w := by have := hw.pos; omega
  by_cases hf : s.fails s.tick = false
  · obtain ⟨s', e, t, h⟩ := initInt_run hw (S := S) ho hf hv
    exact ⟨0, s', e, t, Or.inl ⟨rfl, h⟩⟩
  · obtain ⟨st, s1, h1, h2, h3⟩ := init_run (sp := S) hw0 ho
    rcases h3 with ⟨rfl, h3⟩ | ⟨rfl, f, h3⟩
    · obtain ⟨s2, e1, e2, e3, -⟩ := setInt_run hw (S := S) h3 hv
      refine ⟨0, s2, ?_, h2.trans e2, Or.inl ⟨rfl, e3⟩⟩
      unfold initInt
      rw [chk_ok h1, bind_ok e1, if_neg (by decide)]; rfl
    · refine ⟨-1, s1, ?_, h2, Or.inr ⟨rfl, f, h3⟩⟩
      unfold initInt
      rw [chk_fail h1 (by decide)]

theorem fixSign_run {S a n : Nat} {s : St} {A : Nat} (sign : Bool) (h : V w (A : Int) n (s.obj a)) :
    ∃ s', fixSign a sign s = .ok ((), s') ∧ Step S s s' a ∧ V w (if sign then -(A : Int) else A) n (s'.obj a) := by
  obtain ⟨m, m1, m2, m3⟩ := h
  have hm := NatRep.of_wf m1 m2
  obtain ⟨s', e, t, v⟩ := sign_run (S := S) (g := if m.digs.length = 0 then false else sign) m3
  refine ⟨s', ?_, t, ⟨if m.digs.length = 0 then false else sign, m.digs⟩, ⟨⟨m1.digits, m1.top⟩, fun e0 => ?_⟩, ?_, v⟩
  · unfold fixSign
    rw [bind_ok (hdr_ok m3.1.1)]
    exact e
  · dsimp only at e0 ⊢
    exact if_pos (by rw [e0]; rfl)
  · unfold Mpi.toInt
    dsimp only
    by_cases h0 : m.digs.length = 0
    · have hA : A = 0 := hm.digs_nil_iff.1 (List.eq_nil_of_length_eq_zero h0)
      rw [List.eq_nil_of_length_eq_zero h0, hA]
      cases sign <;> simp
    · rw [if_neg h0, hm.value]

theorem cleared_v (n : Nat) (hn : n = 0) : V w 0 n Obj.cleared := by
  subst hn
  exact ⟨⟨false, []⟩, (NatRep.zero w).wf, rfl, ⟨rfl, ⟨[], rfl⟩, Or.inl rfl⟩, Nat.zero_le _⟩

/-- Both locals are given back. -/
theorem strDone {K : Ctx} {s0 s : St} {sp a radix : Nat} {P : Obj → Prop} (has : a < sp) (h : At K (Ld w s0 sp a radix P) (sp + 2) s) (st : Int) :
    WP (do clear (sp + 1); clear sp; pure st) (fun r s' => r = st ∧ s.tick ≤ s'.tick ∧ At K (Lv w sp (But s0 a P) 0) (sp + 2) s') s := by
  have v1 := h.objs (sp + 1) (by omega)
  unfold Ld at v1
  rw [if_neg (by omega), if_neg (by omega)] at v1
  obtain ⟨s1, e1, t1, o1⟩ := clear_run (sp := sp + 2) v1.clr
  have h1 := step_at h (by omega) t1 (P := (· = Obj.cleared)) o1
  have v2 := h1.objs sp (by omega)
  rw [Function.update_of_ne (by omega)] at v2
  unfold Ld at v2
  rw [if_neg (by omega), if_pos rfl] at v2
  obtain ⟨d, v2⟩ := v2
  obtain ⟨s2, e2, t2, o2⟩ := clear_run (sp := sp + 2) (Or.inr ⟨_, v2.1⟩)
  have h2 := step_at h1 (by omega) t2 (P := (· = Obj.cleared)) o2
  refine WP.bind_run e1 (WP.bind_run e2 (WP.pure ⟨rfl, t1.tick.trans t2.tick, h2.le fun v hv o ho => ?_⟩))
  by_cases hlt : v < sp
  · rw [Function.update_of_ne (by omega), Function.update_of_ne (by omega)] at ho
    unfold Ld at ho
    rw [if_pos hlt] at ho
    rw [Lv.lo hlt]
    unfold But
    by_cases hva : v = a
    · subst hva; rw [Function.update_self]; rwa [if_pos rfl] at ho
    · rw [Function.update_of_ne hva]; rwa [if_neg hva] at ho
  · rw [Lv.hi (by omega)]
    by_cases hvs : v = sp
    · subst hvs; rw [Function.update_self] at ho; rw [ho]; rfl
    · have : v = sp + 1 := by omega
      subst this
      rw [Function.update_of_ne (by omega), Function.update_self] at ho
      rw [ho]; rfl

theorem But.at {s0 : St} {sp a i S : Nat} {P Q : Obj → Prop} (has : a < sp) :
    Le S (Function.update (Lv w sp (But s0 a P) i) a Q) (Lv w sp (But s0 a Q) i) := by
  intro v _ o ho
  by_cases hv : v = a
  · subst hv; rw [Function.update_self] at ho; rw [Lv.lo has]; unfold But; rw [Function.update_self]; exact ho
  · rw [Function.update_of_ne hv] at ho
    by_cases hlt : v < sp
    · rw [Lv.lo hlt] at ho ⊢
      unfold But at ho ⊢
      rw [Function.update_of_ne hv] at ho ⊢; exact ho
    · unfold Lv at ho ⊢
      rw [if_neg hlt] at ho ⊢; exact ho

theorem loadStrBody_run (hw : DigitWidth w) {K : Ctx} {s0 : St} {sp a radix : Nat} (has : a < sp) (hr : 2 ≤ radix) (hr' : radix ≤ 36) {ds rest : List Byte}
    (hds : ∀ c ∈ ds, IsDigit radix c) (hrest : ∀ c cs, rest = c :: cs → radix ≤ ascToRaw c) (h16 : radix = 16 → rest = []) (sign : Bool) {s : St}
    (h : At K (Lv w sp (But s0 a (V w 0 0)) 0) (sp + 2) s) :
    WP (loadStrBody w sp a radix sign (ds ++ rest)) (fun st s' =>
      (st = 0 ∧ rest = [] ∧ At K (Lv w sp (But s0 a (V w (if sign then -(numeral radix ds : Int) else numeral radix ds) 0)) 0) (sp + 2) s') ∨
      (st = -1 ∧ (rest = [] → Bad K s') ∧ At K (Lv w sp (But s0 a (V w 0 0)) 0) (sp + 2) s')) s := by
  have hw8 := hw.pos
  have geta : ∀ {P : Obj → Prop} {s' : St} {i : Nat}, At K (Lv w sp (But s0 a P) i) (sp + 2) s' → P (s'.obj a) := fun h => by
    have := h.objs a (by omega)
    rw [Lv.lo has] at this
    unfold But at this
    rwa [Function.update_self] at this
  unfold loadStrBody
  by_cases h16' : radix = 16
  · rw [if_pos h16', h16 h16', List.append_nil]
    subst h16'
    obtain ⟨st, s1, e1, h1⟩ := leaf_at h (by omega) (loadStrHex_leaf hw (sp := sp + 2) (geta h) (Int.le_refl _) ds hds)
    refine WP.bind_run e1 ?_
    rcases h1 with ⟨rfl, h1⟩ | ⟨rfl, f, h1⟩
    · have h1 := h1.le (But.at has)
      obtain ⟨s2, e2, t2, v2⟩ := fixSign_run (S := sp + 2) sign (geta h1)
      exact WP.bind_run e2 (WP.pure (Or.inl ⟨rfl, rfl, (step_at h1 (by omega) t2 v2).le (But.at has)⟩))
    · have h1 := h1.le (But.at has)
      have hz : V w ((0 : Nat) : Int) 0 (s1.obj a) := by rw [geta h1]; exact geta h
      obtain ⟨s2, e2, t2, v2⟩ := fixSign_run (S := sp + 2) sign hz
      refine WP.bind_run e2 (WP.pure (Or.inr ⟨rfl, fun _ => f.mono t2.tick, (step_at h1 (by omega) t2 (P := V w 0 0) ?_).le (But.at has)⟩))
      simpa using v2
  · rw [if_neg h16']
    have o1 := h.objs (sp + 1) (by omega)
    rw [Lv.hi (by omega)] at o1
    obtain ⟨st, s1, e1, h1⟩ := leaf_at h (by omega) (initInt_leaf hw (S := sp + 2) (v := (radix : Int)) o1 (by rw [Int.natAbs_natCast]; omega))
    refine WP.bind_run e1 ?_
    rcases h1 with ⟨rfl, h1⟩ | ⟨rfl, f, h1⟩
    · rw [if_neg (by decide)]
      have o2 := h1.objs sp (by omega)
      rw [Function.update_of_ne (by omega), Lv.hi (by omega)] at o2
      obtain ⟨st, s2, e2, h2⟩ := leaf_at h1 (by omega) (initInt_leaf hw (S := sp + 2) (v := 1) o2 (by decide))
      refine WP.bind_run e2 ?_
      rcases h2 with ⟨rfl, h2⟩ | ⟨rfl, f, h2⟩
      · rw [if_neg (by decide)]
        have h3 : At K (Ld w s0 sp a radix (V w ((0 : Nat) : Int) 0)) (sp + 2) s2 := h2.le fun v hv o ho => by
          unfold Ld
          by_cases hlt : v < sp
          · rw [Function.update_of_ne (by omega), Function.update_of_ne (by omega), Lv.lo hlt] at ho
            rw [if_pos hlt]
            unfold But at ho
            by_cases hva : v = a
            · subst hva; rw [Function.update_self] at ho; rw [if_pos rfl]; exact ho
            · rw [Function.update_of_ne hva] at ho; rw [if_neg hva]; exact ho
          · rw [if_neg hlt]
            by_cases hvs : v = sp
            · subst hvs
              rw [Function.update_self] at ho
              rw [if_pos rfl]
              obtain ⟨m, m1, m2, m3⟩ := ho
              have := (NatRep.of_wf (n := 1) m1 (by rw [m2]; rfl)).unique (NatRep.one hw8)
              subst this
              exact ⟨1, m3.1, Nat.zero_le _⟩
            · have : v = sp + 1 := by omega
              subst this
              rw [Function.update_of_ne (by omega), Function.update_self] at ho
              rw [if_neg hvs]; exact ho.weak (Nat.zero_le _)
        have hsplit : (ds ++ rest).dropWhile (· == 48#8) = ds.dropWhile (· == 48#8) ++ rest := by
          rw [List.dropWhile_append]
          split
          · next he =>
            rw [List.isEmpty_iff] at he
            rw [he, List.nil_append]
            cases hc : rest with
            | nil => rfl
            | cons c cs =>
              have h1 := hrest c cs hc
              rw [List.dropWhile_cons, if_neg]
              intro e
              rw [beq_iff_eq] at e
              rw [e] at h1
              have : ascToRaw 48#8 = 0 := by decide
              omega
          · rfl
        rw [hsplit]
        obtain ⟨r, s3, e3, h4⟩ := digitsLoop_run hw has hr hr' hrest (ds.dropWhile (· == 48#8)) 0 s2
          (fun c hc => hds c (List.dropWhile_subset _ hc)) (fun _ => Mpi.dropWhile_head' ds) h3
        refine WP.bind_run e3 ?_
        have hnum : numeralFrom radix 0 (ds.dropWhile (· == 48#8)) = numeral radix ds := Mpi.numeral_dropWhile radix ds
        have bad : ∀ {P : Obj → Prop}, (r ≠ []) → (rest = [] → Bad K s3) → (∀ o, P o → Null o ∨ ∃ m, o.Holds m) → At K (Ld w s0 sp a radix P) (sp + 2) s3 →
            WP (do
              let st ← strStop a r
              fixSign a sign
              clear (sp + 1)
              clear sp
              pure st) (fun st s' =>
              (st = 0 ∧ rest = [] ∧ At K (Lv w sp (But s0 a (V w (if sign then -(numeral radix ds : Int) else numeral radix ds) 0)) 0) (sp + 2) s') ∨
              (st = -1 ∧ (rest = [] → Bad K s') ∧ At K (Lv w sp (But s0 a (V w 0 0)) 0) (sp + 2) s')) s3 := by
          intro P hr0 hbad hP h5
          have va := h5.objs a (by omega)
          unfold Ld at va
          rw [if_pos has, if_pos rfl] at va
          obtain ⟨s4, e4, t4, o4⟩ := clear_run (sp := sp + 2) (hP _ va)
          have h6 := (step_at h5 (by omega) t4 (P := V w ((0 : Nat) : Int) 0) (by rw [o4]; exact cleared_v _ rfl)).le (Ld.up has)
          have hstop : strStop a r s3 = .ok (-1, s4) := by
            unfold strStop
            rw [if_pos hr0, bind_ok e4]; rfl
          refine WP.bind_run hstop ?_
          obtain ⟨s5, e5, t5, v5⟩ := fixSign_run (S := sp + 2) (w := w) (n := 0) (A := 0) (s := s4) (a := a) sign (by rw [o4]; exact cleared_v _ rfl)
          refine WP.bind_run e5 ((strDone has ((step_at h6 (by omega) t5 (P := V w 0 0) (by simpa using v5)).le (Ld.up has)) (-1)).mono fun st s' hh => ?_)
          exact Or.inr ⟨hh.1, fun e => (hbad e).mono ((t4.tick.trans t5.tick).trans hh.2.1), hh.2.2⟩
        rcases h4 with ⟨rfl, h4⟩ | ⟨hr0, f, h4⟩
        · by_cases hre : r = []
          · rw [hnum] at h4
            have va := h4.objs a (by omega)
            unfold Ld at va
            rw [if_pos has, if_pos rfl] at va
            refine WP.bind_run (show strStop a r s3 = .ok (0, s3) by unfold strStop; rw [if_neg (by simpa using hre)]; rfl) ?_
            obtain ⟨s5, e5, t5, v5⟩ := fixSign_run (S := sp + 2) sign va
            refine WP.bind_run e5 ((strDone has ((step_at h4 (by omega) t5 v5).le (Ld.up has)) 0).mono fun st s' hh => Or.inl ⟨hh.1, hre, hh.2.2⟩)
          · exact bad hre (fun e => absurd e hre) (fun o ho => ho.clr) h4
        · exact bad hr0 (fun _ => f) (fun o ho => by obtain ⟨z, m, -, m3⟩ := ho; exact Or.inr ⟨m, m3.1⟩) h4
      · rw [if_pos (by decide)]
        have o3 := h2.objs (sp + 1) (by omega)
        rw [Function.update_of_ne (by omega), Function.update_self] at o3
        obtain ⟨s4, e4, t4, o4⟩ := clear_run (sp := sp + 2) o3.clr
        refine WP.bind_run e4 (WP.pure (Or.inr ⟨rfl, fun _ => f.mono t4.tick, (step_at h2 (by omega) t4 (P := (· = Obj.cleared)) o4).le fun v hv o ho => ?_⟩))
        by_cases hv1 : v = sp + 1
        · subst hv1; rw [Function.update_self] at ho; rw [Lv.hi (by omega), ho]; rfl
        · rw [Function.update_of_ne hv1] at ho
          by_cases hv0 : v = sp
          · subst hv0; rw [Function.update_self] at ho; rw [Lv.hi (by omega)]; exact ho.owns
          · rw [Function.update_of_ne hv0, Function.update_of_ne hv1] at ho; exact ho
    · rw [if_pos (by decide)]
      refine WP.pure (Or.inr ⟨rfl, fun _ => f, h1.le fun v hv o ho => ?_⟩)
      by_cases hv1 : v = sp + 1
      · subst hv1; rw [Function.update_self] at ho; rw [Lv.hi (by omega)]; exact ho.owns
      · rwa [Function.update_of_ne hv1] at ho

theorem loadStr_res (hw : DigitWidth w) {sp a radix : Nat} {s : St} (ha : Any w (s.obj a)) (has : a < sp) (hr : 2 ≤ radix) (hr' : radix ≤ 36) {ds rest : List Byte}
    (hds : ∀ c ∈ ds, IsDigit radix c) (hrest : ∀ c cs, rest = c :: cs → radix ≤ ascToRaw c) (h16 : radix = 16 → rest = []) (sign : Option Bool) :
    WP (loadStr w sp a radix (withSign sign (ds ++ rest))) (fun st s' => Step sp s s' a ∧
      ((st = 0 ∧ rest = [] ∧ V w (if sign = some true then -(numeral radix ds : Int) else numeral radix ds) 0 (s'.obj a)) ∨
      (st = -1 ∧ (rest = [] → Failed s s') ∧ V w 0 0 (s'.obj a)))) s := by
  unfold loadStr
  have key : ∀ {P : Obj → Prop} {s' : St}, At (ctxOf sp s) (Lv w sp (But s a P) 0) (sp + 2) s' → Step sp s s' a ∧ P (s'.obj a) := fun {P s'} h => by
    have h1 : At (ctxOf sp s) (But s a P) sp s' :=
      (exit_at h (fun v hv hv' o ho => by rwa [Lv.hi (by omega)] at ho)).le fun v hv o ho => by rwa [Lv.lo hv] at ho
    obtain ⟨st, s2, e, t, r⟩ := leaf_of_res (s := s) (c := fun _ => .ok (0, s')) (good := P) (bad := P) has ⟨0, s', rfl, Or.inl ⟨rfl, h1⟩⟩
    cases e
    rcases r with ⟨-, r⟩ | ⟨e, -⟩
    · exact ⟨t, r⟩
    · cases e
  refine WP.bind ((decl_at (at_now sp s) 2).mono fun _ s1 h1 => ?_)
  rw [if_neg (by omega)]
  obtain ⟨z, va⟩ := ha
  have h1 := h1.le (Lv.start (w := w) (r := a) (P := V w z 0) va)
  have va1 := h1.objs a (by omega)
  rw [Lv.lo has] at va1
  unfold But at va1
  rw [Function.update_self] at va1
  obtain ⟨s2, e2, t2, v2⟩ := zero_run (S := sp + 2) va1
  refine WP.bind_run e2 ?_
  have h2 := (step_at h1 (by omega) t2 v2).le (But.at has)
  have fin : ∀ g : Bool, WP (loadStrBody w sp a radix g (ds ++ rest)) (fun st s' => Step sp s s' a ∧
      ((st = 0 ∧ rest = [] ∧ V w (if g then -(numeral radix ds : Int) else numeral radix ds) 0 (s'.obj a)) ∨
      (st = -1 ∧ (rest = [] → Failed s s') ∧ V w 0 0 (s'.obj a)))) s2 := fun g =>
    (loadStrBody_run hw has hr hr' hds hrest h16 g h2).mono fun st s' hh => by
      rcases hh with ⟨e, e', hh⟩ | ⟨e, f, hh⟩
      · obtain ⟨t, v⟩ := key hh
        exact ⟨t, Or.inl ⟨e, e', v⟩⟩
      · obtain ⟨t, v⟩ := key hh
        exact ⟨t, Or.inr ⟨e, f, v⟩⟩
  cases sign with
  | some g =>
    cases g with
    | true =>
      rw [withSign]
      dsimp only
      rw [if_pos rfl]
      simpa using fin true
    | false =>
      rw [withSign]
      dsimp only
      rw [if_neg (by decide), if_pos rfl]
      simpa using fin false
  | none =>
    rw [withSign]
    have hplain : ∀ c cs, ds ++ rest = c :: cs → c ≠ 45#8 ∧ c ≠ 43#8 := by
      intro c cs e
      have : 2 ≤ ascToRaw c ∨ ∃ d, digitValue c = some d := by
        cases ds with
        | nil => exact Or.inl (hr.trans (hrest c cs e))
        | cons c' ds =>
          rw [List.cons_append] at e
          cases e
          obtain ⟨d, hd, -⟩ := hds c (by simp)
          exact Or.inr ⟨d, hd⟩
      constructor
      · rintro rfl
        rcases this with h | ⟨d, h⟩
        · exact absurd h (by decide)
        · exact absurd h (by rw [show digitValue 45#8 = none from by decide]; simp)
      · rintro rfl
        rcases this with h | ⟨d, h⟩
        · exact absurd h (by decide)
        · exact absurd h (by rw [show digitValue 43#8 = none from by decide]; simp)
    have hf := fin false
    cases hc : ds ++ rest with
    | nil => rw [hc] at hf; simpa using hf
    | cons c cs =>
      rw [hc] at hf
      dsimp only
      rw [if_neg (hplain c cs hc).1, if_neg (hplain c cs hc).2]
      simpa using hf

theorem initStr_res (hw : DigitWidth w) {sp a radix : Nat} {s : St} (ha : (s.obj a).owns = 0) (has : a < sp) (hr : 2 ≤ radix) (hr' : radix ≤ 36) {ds rest : List Byte}
    (hds : ∀ c ∈ ds, IsDigit radix c) (hrest : ∀ c cs, rest = c :: cs → radix ≤ ascToRaw c) (h16 : radix = 16 → rest = []) (sign : Option Bool) :
    WP (initStr w sp a radix (withSign sign (ds ++ rest))) (fun st s' => Step sp s s' a ∧
      ((st = 0 ∧ rest = [] ∧ V w (if sign = some true then -(numeral radix ds : Int) else numeral radix ds) 0 (s'.obj a)) ∨
      (st = -1 ∧ (rest = [] → Failed s s') ∧ Null (s'.obj a)))) s := by
  have hw8 := hw.pos
  unfold initStr
  obtain ⟨st, s1, e1, t1, h1⟩ := init_run (sp := sp) (w := w) (by omega) ha
  rcases h1 with ⟨rfl, h1⟩ | ⟨rfl, f, h1⟩
  · obtain ⟨st, s2, e2, t2, h2⟩ := loadStr_res hw (s := s1) h1.any has hr hr' hds hrest h16 sign
    rcases h2 with ⟨rfl, h3, h2⟩ | ⟨rfl, f, h2⟩
    · refine WP.run ?_ ⟨t1.trans t2, Or.inl ⟨rfl, h3, h2⟩⟩
      rw [chk_ok e1, bind_ok e2]; rfl
    · obtain ⟨s3, e3, t3, o3⟩ := clear_run (sp := sp) h2.clr
      refine WP.run (s' := s3) (a := -1) ?_ ⟨(t1.trans t2).trans t3, Or.inr ⟨rfl, fun e => ((f e).pre t1.tick t1.fails).mono t3.tick, by rw [o3]; rfl⟩⟩
      rw [chk_ok e1, bind_ok e2, if_pos (by decide), bind_ok e3]; rfl
  · exact WP.run (chk_fail e1 (by decide)) ⟨t1, Or.inr ⟨rfl, fun _ => f, h1⟩⟩

theorem initBin_leaf (hw : DigitWidth w) {sp a : Nat} {s : St} (ha : (s.obj a).owns = 0) (bs : List Byte) :
    Leaf sp s a (initBin w a bs) (V w (beVal bs : Nat) 0) Null := by
  have hw8 := hw.pos
  unfold initBin
  refine (initSize_run (w := w) (by omega) ha).chk (fun _ h => h) fun s1 t1 v1 => ?_
  obtain ⟨m, m1, m2, m3⟩ := v1
  have hm := NatRep.of_wf (n := 0) m1 (by rw [m2]; rfl)
  obtain ⟨st, s2, e2, t2, h2⟩ := loadBin_leaf hw (sp := sp) m3 bs
  rcases h2 with ⟨rfl, h2⟩ | ⟨rfl, f, h2⟩
  · refine ⟨0, s2, by rw [bind_ok e2]; rfl, t2, Or.inl ⟨rfl, _, ?_, ?_, h2.1, Nat.zero_le _⟩⟩
    · obtain ⟨g1, g2, g3, g4⟩ := Mpi.loadBin_spec hw m.neg bs
      rw [hm.neg] at g1 g3 ⊢
      exact Mpi.wf_of_norm_false g1 g3
    · obtain ⟨g1, g2, g3, g4⟩ := Mpi.loadBin_spec hw m.neg bs
      rw [hm.neg] at g2 g3 ⊢
      rw [Mpi.toInt_false g3, g2]
  · obtain ⟨s3, e3, t3, o3⟩ := clear_run (sp := sp) (a := a) (s := s2) (Or.inr ⟨m, by rw [h2]; exact m3.1⟩)
    refine ⟨-1, s3, by rw [bind_ok e2, if_pos (by decide), bind_ok e3]; rfl, t2.trans t3, Or.inr ⟨rfl, f.mono t3.tick, by rw [o3]; rfl⟩⟩

end Verif.Mem
