import Verif.Lemmas.Mem.Sqrt
import Verif.Lemmas.Mem.LoadStr
import Verif.Props.Mem.NumTheory
/-!
# C73–C77: square root, binary and string conversion in memory

`cry_mpi_sqrt`, `cry_mpi_load_bin`, `cry_mpi_init_bin`, `cry_mpi_store_bin`, `cry_mpi_load_str`, `cry_mpi_init_str`,
`cry_mpi_store_str` and `cry_mpi_print` with their local objects and the buffers of the caller.
-/
namespace Verif.Mem
open Verif.Mpi (Mpi Norm WF DigitWidth ascToRaw)
open Verif (Byte beVal byteLen Fits withSign IsNumeral IsDigit numeral)

variable {w sp x a r radix bufsiz p : Nat} {s : St} {z zr : Int}

/-- C73: the integer square root, in place or not.  If an allocation fails, this is reported and the result keeps its value. -/
theorem mem_sqrt (hw : DigitWidth w) {A : Nat} (hr : (s.obj r).Is w zr) (ha : (s.obj a).Shows w A) (hrs : r < sp) (has : a < sp) :
    Outcome sp s r (sqrt w sp r a) (fun o => ∃ q : Nat, o.Is w q ∧ q * q ≤ A ∧ A < (q + 1) * (q + 1)) (· = s.obj r) :=
  ((sqrt_leaf hw ⟨zr, V.of_is hr⟩ ha hrs has).mono (fun _ h => ⟨_, h.is, Nat.sqrt_le A, Nat.lt_succ_sqrt A⟩) fun _ h => h).outcome

/-- C73: a negative number is refused, nothing is changed or allocated. -/
theorem mem_sqrt_negative (ha : (s.obj a).Shows w z) (hz : z < 0) (has : a < sp) :
    ∃ s', sqrt w sp r a s = .ok (-1, s') ∧ (∀ v, v < sp → s'.obj v = s.obj v) ∧ s'.live = s.live ∧ s'.tick = s.tick := by
  obtain ⟨m, m1, m2, c, m4, m5⟩ := ha
  have hn : m.neg = true := (Mpi.neg_iff_of_wf m1).2 (by rw [m2]; exact hz)
  refine ⟨{ s with obj := fun v => if sp ≤ v ∧ v < sp + 2 then Obj.fresh else s.obj v }, ?_, fun v hv => if_neg (by omega), rfl, rfl⟩
  unfold sqrt
  refine (bind_ok (a := ()) (s' := { s with obj := fun v => if sp ≤ v ∧ v < sp + 2 then Obj.fresh else s.obj v }) rfl).trans ?_
  rw [bind_ok (hdr_ok (h := ⟨m.neg, m.digs.length, c⟩) (by
    show (if sp ≤ a ∧ a < sp + 2 then Obj.fresh else s.obj a).hdr = _
    rw [if_neg (by omega)]; exact m4))]
  dsimp only
  rw [if_pos hn]; rfl

/-- C74: `cry_mpi_load_bin`.  The magnitude is the value of the bytes; the sign is that of the number held before
unless the result is zero. -/
theorem mem_loadBin (hw : DigitWidth w) (hx : (s.obj x).Is w z) (bs : List Byte) :
    Outcome sp s x (loadBin w x bs) (Obj.Is w (if z < 0 then -(beVal bs : Int) else beVal bs)) (· = s.obj x) := by
  obtain ⟨m, m1, m2, m3⟩ := hx
  refine ((loadBin_leaf hw (n := 0) ⟨m3, Nat.zero_le _⟩ bs).mono (fun o h => ⟨_, ?_, ?_, h.1⟩) fun _ h => h).outcome
  · obtain ⟨g1, g2, g3, g4⟩ := Mpi.loadBin_spec hw m.neg bs
    exact ⟨g1, fun e => by rw [g3, (g4.1 e)]; simp⟩
  · obtain ⟨g1, g2, g3, g4⟩ := Mpi.loadBin_spec hw m.neg bs
    have hn : (m.neg = true) = (z < 0) := by rw [← m2]; exact propext (Mpi.neg_iff_of_wf m1)
    unfold Mpi.toInt
    rw [g2, g3]
    by_cases h0 : beVal bs = 0
    · rw [h0]; simp
    · cases hm : m.neg with
      | true =>
        have hz : z < 0 := by rw [hm] at hn; exact hn.mp rfl
        simp [h0, hz]
      | false =>
        have hz : ¬ z < 0 := by rw [hm] at hn; intro h; exact absurd (hn.mpr h) (by simp)
        simp [hz]

/-- C74: `cry_mpi_init_bin` on an object that owns nothing; on failure it owns nothing afterwards. -/
theorem mem_initBin (hw : DigitWidth w) (hx : (s.obj x).owns = 0) (bs : List Byte) :
    Outcome sp s x (initBin w x bs) (Obj.Is w (beVal bs)) (fun o => o.data = .null) :=
  ((initBin_leaf hw hx bs).mono (fun _ h => h.is) fun _ h => h).outcome

/-- C74: `cry_mpi_store_bin`.  The big-endian magnitude is written, with padding to the size of the buffer, without padding to
as many bytes as needed.  Nothing else is written and no byte outside the buffer is touched. -/
theorem mem_storeBin (hw : DigitWidth w) (hx : (s.obj x).Shows w z) (pad : Bool) {b : Buf} (hz : z.natAbs < 256 ^ bufsiz)
    (hb : p + (if pad then bufsiz else byteLen z) ≤ b.length) :
    ∃ bs, storeBin w x b p bufsiz pad s = .ok ((0, b.take p ++ bs.map some ++ b.drop (p + bs.length)), s) ∧ beVal bs = z.natAbs ∧
      bs.length = if pad then bufsiz else byteLen z := by
  obtain ⟨m, m1, m2, m3⟩ := hx
  have hv : Mpi.val (2 ^ w) m.digs = z.natAbs := by rw [← m2, Mpi.natAbs_toInt]
  obtain ⟨bs, b1, b2, b3⟩ := Mpi.storeBin_spec hw m1.toNorm bufsiz pad (by rw [hv]; exact hz)
  have hc : Mpi.countBytes w m = byteLen z := by
    unfold Mpi.countBytes byteLen
    rw [Mpi.countBits_spec hw m1.toNorm, hv]
  rw [hc] at b2
  exact ⟨bs, storeBin_ok hw m3 m1.toNorm b1 (by rw [b2]; exact hb), by rw [b3, hv], b2⟩

/-- C74: if the magnitude does not fit, this is reported and nothing is written. -/
theorem mem_storeBin_small (hw : DigitWidth w) (hx : (s.obj x).Shows w z) (pad : Bool) {b : Buf} (hz : 256 ^ bufsiz ≤ z.natAbs) :
    storeBin w x b p bufsiz pad s = .ok ((-1, b), s) := by
  obtain ⟨m, m1, m2, m3⟩ := hx
  exact storeBin_small m3 (Mpi.storeBin_none hw m1.toNorm bufsiz pad (by rw [← Mpi.natAbs_toInt, m2]; exact hz))

/-- C75: `cry_mpi_store_str` into a buffer with room for the string and its terminating 0.  If an allocation fails this is
reported; then a part of the string's room may have been written to, and nothing else. -/
theorem mem_storeStr (hw : DigitWidth w) (ha : (s.obj a).Shows w z) (has : a < sp) (hr : 2 ≤ radix) (hr' : radix ≤ 16) :
    ∃ t, IsNumeral radix z t ∧ ∀ b : Buf, t.length + 1 ≤ b.length → ∃ st b' s', storeStr w sp a radix b s = .ok ((st, b'), s') ∧
      (∀ v, v < sp → s'.obj v = s.obj v) ∧ s'.live = s.live ∧
      ((st = 0 ∧ b' = t.map some ++ [some 0#8] ++ b.drop (t.length + 1)) ∨
       (st = -1 ∧ Failed s s' ∧ ∃ L : List Byte, L.length ≤ t.length ∧ b' = L.map some ++ b.drop L.length)) := by
  obtain ⟨t, ht, h⟩ := storeStr_res hw ha has hr hr'
  refine ⟨t, ht, fun b hb => ?_⟩
  obtain ⟨⟨st, b'⟩, s', e, hres, hp⟩ := h b hb
  have key : At (ctxOf sp s) (Now s) sp s' → (∀ v, v < sp → s'.obj v = s.obj v) ∧ s'.live = s.live := fun h => by
    refine ⟨h.objs, ?_⟩
    have h1 := h.bal
    have : (ctxOf sp s).B = s.live - ∑ v ∈ Finset.range sp, (s.obj v).owns := rfl
    have h2 : ∑ v ∈ Finset.range sp, (s'.obj v).owns = ∑ v ∈ Finset.range sp, (s.obj v).owns :=
      Finset.sum_congr rfl fun v hv => by rw [show s'.obj v = s.obj v from h.objs v (Finset.mem_range.1 hv)]
    rw [this] at h1
    omega
  rcases hres with ⟨e0, hh⟩ | ⟨e0, f, hh⟩
  · obtain ⟨k1, k2⟩ := key hh
    refine ⟨st, b', s', e, k1, k2, Or.inl ⟨e0, ?_⟩⟩
    rw [show b' = _ from hp.1 e0]
    simp [overB]
  · obtain ⟨k1, k2⟩ := key hh
    have e0' : st = -1 := e0
    obtain ⟨L, l1, l2⟩ := hp.2 (by rw [e0]; decide)
    refine ⟨st, b', s', e, k1, k2, Or.inr ⟨e0, f, L, l1, ?_⟩⟩
    rw [show b' = _ from l2]
    simp [overB]

/-- C75: radices outside 2 to 16 are refused, nothing is written. -/
theorem mem_storeStr_radix (b : Buf) (hr : radix < 2 ∨ 16 < radix) :
    ∃ s', storeStr w sp a radix b s = .ok ((-1, b), s') ∧ (∀ v, v < sp → s'.obj v = s.obj v) ∧ s'.live = s.live ∧ s'.tick = s.tick := by
  refine ⟨{ s with obj := fun v => if sp ≤ v ∧ v < sp + 3 then Obj.fresh else s.obj v }, ?_, fun v hv => if_neg (by omega), rfl, rfl⟩
  unfold storeStr
  refine (bind_ok (a := ()) (s' := { s with obj := fun v => if sp ≤ v ∧ v < sp + 3 then Obj.fresh else s.obj v }) rfl).trans ?_
  rw [if_pos hr]; rfl

/-- C76, partial.  Full statement: `cry_mpi_print` prints the number in any radix from 2 to 16, or prints an error message after a
failed allocation.  Proved for numbers whose string fits into the buffer the function allocates.
Missing: the other numbers, where it is false (`mem_print_overruns`). -/
theorem mem_print_partial (hw : DigitWidth w) (ha : (s.obj a).Shows w z) (has : a < sp) (hr : 2 ≤ radix) (hr' : radix ≤ 16) (hfit : Fits radix z) :
    ∃ t, IsNumeral radix z t ∧ ∃ out s', print w sp a radix s = .ok (out, s') ∧ (∀ v, v < sp → s'.obj v = s.obj v) ∧ s'.live = s.live ∧
      (out = .line t ∨ (out = .error ∧ Failed s s')) :=
  print_res hw ha has hr hr' hfit

/-- C76: in radix 16 every number is printed. -/
theorem mem_print_hex (hw : DigitWidth w) (ha : (s.obj a).Shows w z) (has : a < sp) :
    ∃ t, IsNumeral 16 z t ∧ ∃ out s', print w sp a 16 s = .ok (out, s') ∧ (∀ v, v < sp → s'.obj v = s.obj v) ∧ s'.live = s.live ∧
      (out = .line t ∨ (out = .error ∧ Failed s s')) :=
  print_res hw ha has (by decide) (by decide) (fits_hex z)

/-- C76: a number whose string does not fit is written past the end of the allocated buffer. -/
theorem mem_print_overruns (hw : DigitWidth w) (hf : ∀ k, s.fails k = false) (ha : (s.obj a).Shows w z) (has : a < sp) (hr : 2 ≤ radix) (hr' : radix ≤ 16)
    (hfit : ¬ Fits radix z) : print w sp a radix s = .ub :=
  print_over hw hf ha has hr hr' hfit

/-- C77: `cry_mpi_load_str` of a string of digits with an optional sign.  If an allocation fails, this is reported and the object
holds 0. -/
theorem mem_loadStr (hw : DigitWidth w) (ha : (s.obj a).Is w z) (has : a < sp) (hr : 2 ≤ radix) (hr' : radix ≤ 36) {ds : List Byte}
    (hds : ∀ c ∈ ds, IsDigit radix c) (sign : Option Bool) :
    Outcome sp s a (loadStr w sp a radix (withSign sign ds))
      (Obj.Is w (if sign = some true then -(numeral radix ds : Int) else numeral radix ds)) (Obj.Is w 0) := by
  obtain ⟨st, s', e, t, h⟩ := loadStr_res hw ⟨z, V.of_is ha⟩ has hr hr' (rest := []) hds (fun _ _ h => by cases h) (fun _ => rfl) sign
  rw [List.append_nil] at e
  refine ⟨st, s', e, t.frame, by have := t.live; omega, ?_⟩
  rcases h with ⟨e, -, h⟩ | ⟨e, f, h⟩
  · exact Or.inl ⟨e, h.is⟩
  · exact Or.inr ⟨e, f rfl, h.is⟩

/-- C77: in every radix but 16, a letter or digit that is not one of the radix makes the import fail; the object then holds 0,
and nothing leaks. -/
theorem mem_loadStr_invalid (hw : DigitWidth w) (ha : (s.obj a).Is w z) (has : a < sp) (hr : 2 ≤ radix) (hr' : radix ≤ 36) (h16 : radix ≠ 16) {ds cs : List Byte}
    {c : Byte} {d : Nat} (hds : ∀ c ∈ ds, IsDigit radix c) (hc : Verif.digitValue c = some d) (hd : radix ≤ d) (sign : Option Bool) :
    ∃ s', loadStr w sp a radix (withSign sign (ds ++ c :: cs)) s = .ok (-1, s') ∧ (∀ v, v < sp → v ≠ a → s'.obj v = s.obj v) ∧
      s'.live - (s'.obj a).owns = s.live - (s.obj a).owns ∧ (s'.obj a).Is w 0 := by
  obtain ⟨st, s', e, t, h⟩ := loadStr_res hw ⟨z, V.of_is ha⟩ has hr hr' (rest := c :: cs) hds
    (fun _ _ h => by cases h; rw [Mpi.ascToRaw_of hc]; exact hd) (fun h => absurd h h16) sign
  rcases h with ⟨-, h, -⟩ | ⟨rfl, f, h⟩
  · cases h
  · exact ⟨s', e, t.frame, by have := t.live; omega, h.is⟩

/-- C77: radices above 36 are refused. -/
theorem mem_loadStr_radix (str : List Byte) (hr : 36 < radix) :
    ∃ s', loadStr w sp a radix str s = .ok (-1, s') ∧ (∀ v, v < sp → s'.obj v = s.obj v) ∧ s'.live = s.live ∧ s'.tick = s.tick := by
  refine ⟨{ s with obj := fun v => if sp ≤ v ∧ v < sp + 2 then Obj.fresh else s.obj v }, ?_, fun v hv => if_neg (by omega), rfl, rfl⟩
  unfold loadStr
  refine (bind_ok (a := ()) (s' := { s with obj := fun v => if sp ≤ v ∧ v < sp + 2 then Obj.fresh else s.obj v }) rfl).trans ?_
  rw [if_pos (show radix > 36 from hr)]; rfl

/-- C77: `cry_mpi_init_str` on an object that owns nothing; on failure it owns nothing afterwards. -/
theorem mem_initStr (hw : DigitWidth w) (ha : (s.obj a).owns = 0) (has : a < sp) (hr : 2 ≤ radix) (hr' : radix ≤ 36) {ds : List Byte}
    (hds : ∀ c ∈ ds, IsDigit radix c) (sign : Option Bool) :
    Outcome sp s a (initStr w sp a radix (withSign sign ds))
      (Obj.Is w (if sign = some true then -(numeral radix ds : Int) else numeral radix ds)) (fun o => o.data = .null) := by
  obtain ⟨st, s', e, t, h⟩ := initStr_res hw ha has hr hr' (rest := []) hds (fun _ _ h => by cases h) (fun _ => rfl) sign
  rw [List.append_nil] at e
  refine ⟨st, s', e, t.frame, by have := t.live; omega, ?_⟩
  rcases h with ⟨e, -, h⟩ | ⟨e, f, h⟩
  · exact Or.inl ⟨e, h.is⟩
  · exact Or.inr ⟨e, f rfl, h⟩

/-! ### Concrete cases -/

/-- Whether a run returns `r` in a state satisfying `p`. -/
def returns {α : Type} [DecidableEq α] (c : Out (α × St)) (r : α) (p : St → Bool) : Bool :=
  match c with
  | .ok (r', s') => decide (r' = r) && p s'
  | _ => false

theorem returns_ok {α : Type} [DecidableEq α] {c : Out (α × St)} {r : α} {p : St → Bool} (h : returns c r p = true) :
    ∃ s', c = .ok (r, s') ∧ p s' = true := by
  unfold returns at h
  split at h
  · rw [Bool.and_eq_true, decide_eq_true_iff] at h
    obtain ⟨rfl, h⟩ := h
    exact ⟨_, rfl, h⟩
  · cases h

example (f : Nat → Bool) : Outcome 6 (exDiv f) 0 (sqrt 8 6 0 0) (fun o => ∃ q : Nat, o.Is 8 q ∧ q * q ≤ 200 ∧ 200 < (q + 1) * (q + 1)) (· = (exDiv f).obj 0) :=
  mem_sqrt (A := 200) (Or.inl rfl) (exDiv0 f) (exDiv0 f).shows (by decide) (by decide)
/-- Both ways out do occur: √200 is 14. -/
example : (∃ s', sqrt 8 6 5 0 (exDiv fun _ => false) = .ok (0, s') ∧
      decide (s'.live = 6 ∧ (s'.obj 5).hdr.map Hdr.used = some 1 ∧ (s'.obj 5).cells[0]? = some (some 14)) = true) ∧
    ∃ s', sqrt 8 6 5 0 (exDiv fun k => k == 4) = .ok (-1, s') ∧ decide (s'.live = 5) = true :=
  ⟨endsIn_ok (by decide +kernel), endsIn_ok (by decide +kernel)⟩
example (f : Nat → Bool) : ∃ s', sqrt 8 6 5 1 (exDiv f) = .ok (-1, s') ∧ (∀ v, v < 6 → s'.obj v = (exDiv f).obj v) ∧ s'.live = 5 ∧ s'.tick = 0 :=
  mem_sqrt_negative (exDiv1 f).shows (by decide) (by decide)

/-- Loading over a negative number gives a negative number. -/
example (f : Nat → Bool) : Outcome 6 (exDiv f) 1 (loadBin 8 1 [0, 1, 2]) (Obj.Is 8 (if (-78 : Int) < 0 then -(beVal [0, 1, 2] : Int) else beVal [0, 1, 2]))
    (· = (exDiv f).obj 1) := mem_loadBin (Or.inl rfl) (exDiv1 f) _
example (f : Nat → Bool) : Outcome 6 (exDiv f) 5 (initBin 8 5 [0, 1, 2]) (Obj.Is 8 (beVal [0, 1, 2])) (fun o => o.data = .null) :=
  mem_initBin (Or.inl rfl) rfl _
example : ∃ bs, storeBin 8 1 [none, none, none, none] 1 2 true (exDiv fun _ => false) = .ok ((0, [none] ++ bs.map some ++ [none, none, none].drop bs.length), exDiv fun _ => false) ∧
    beVal bs = 78 ∧ bs.length = 2 := by
  obtain ⟨bs, h1, h2, h3⟩ := mem_storeBin (w := 8) (x := 1) (s := exDiv fun _ => false) (b := [none, none, none, none]) (p := 1) (bufsiz := 2) (Or.inl rfl) (exDiv1 _).shows true
    (by decide) (by decide)
  rw [if_pos rfl] at h3
  refine ⟨bs, ?_, h2, h3⟩
  rw [h1, h3]; rfl
example : storeBin 8 1 [] 0 0 true (exDiv fun _ => false) = .ok ((-1, []), exDiv fun _ => false) :=
  mem_storeBin_small (Or.inl rfl) (exDiv1 _).shows true (by decide)

/-- −78 to the radix 3 needs six bytes. -/
example : ∃ s', storeStr 8 6 1 3 (List.replicate 8 none) (exDiv fun _ => false) =
    .ok ((0, [some 45, some 50, some 50, some 50, some 48, some 0, none, none]), s') ∧ decide (s'.live = 5) = true := returns_ok (by decide +kernel)
example : ∃ t, IsNumeral 3 (-78) t ∧ ∀ b : Buf, t.length + 1 ≤ b.length → ∃ st b' s', storeStr 8 6 1 3 b (exDiv fun k => k == 2) = .ok ((st, b'), s') ∧
      (∀ v, v < 6 → s'.obj v = (exDiv fun k => k == 2).obj v) ∧ s'.live = 5 ∧
      ((st = 0 ∧ b' = t.map some ++ [some 0#8] ++ b.drop (t.length + 1)) ∨
       (st = -1 ∧ Failed (exDiv fun k => k == 2) s' ∧ ∃ L : List Byte, L.length ≤ t.length ∧ b' = L.map some ++ b.drop L.length)) :=
  mem_storeStr (Or.inl rfl) (exDiv1 _).shows (by decide) (by decide) (by decide)
example : ∃ s', storeStr 8 6 1 17 [none] (exDiv fun _ => false) = .ok ((-1, [none]), s') ∧ (∀ v, v < 6 → s'.obj v = (exDiv fun _ => false).obj v) ∧ s'.live = 5 ∧
    s'.tick = 0 := mem_storeStr_radix _ (Or.inr (by decide))

/-- 200 fits in radix 10, but neither −255 nor 16777215 does. -/
example : Fits 10 200 ∧ ¬ Fits 10 (-255) ∧ ¬ Fits 10 16777215 ∧ ¬ Fits 2 200 := by
  unfold Fits byteLen
  have h1 : Nat.size 200 = 8 := by decide
  have h2 : Nat.size 255 = 8 := by decide
  have h3 : Nat.size 16777215 = 24 := by decide +kernel
  refine ⟨?_, ?_, ?_, ?_⟩
  · show 200 < 10 ^ (2 * ((Nat.size 200 + 7) / 8) + 1 - _); rw [h1]; decide
  · show ¬ 255 < 10 ^ (2 * ((Nat.size 255 + 7) / 8) + 1 - _); rw [h2]; decide
  · show ¬ 16777215 < 10 ^ (2 * ((Nat.size 16777215 + 7) / 8) + 1 - _); rw [h3]; decide
  · show ¬ 200 < 2 ^ (2 * ((Nat.size 200 + 7) / 8) + 1 - _); rw [h1]; decide
example : ∃ s', print 8 6 0 10 (exDiv fun _ => false) = .ok (.line [50, 48, 48], s') ∧ decide (s'.live = 5) = true := returns_ok (by decide +kernel)
/-- 200 in radix 2 is written past the end of the buffer. -/
example : print 8 6 0 2 (exDiv fun _ => false) = .ub :=
  mem_print_overruns (Or.inl rfl) (fun _ => rfl) (exDiv0 _).shows (by decide) (by decide) (by decide) (by
    unfold Fits byteLen
    show ¬ 200 < 2 ^ (2 * ((Nat.size 200 + 7) / 8) + 1 - _)
    rw [show Nat.size 200 = 8 by decide]; decide)

/-- "-0120" in radix 3, over a number. -/
example (f : Nat → Bool) : Outcome 6 (exDiv f) 0 (loadStr 8 6 0 3 [45, 48, 49, 50, 48]) (Obj.Is 8 (-15)) (Obj.Is 8 0) :=
  mem_loadStr (radix := 3) (ds := [48, 49, 50, 48]) (Or.inl rfl) (exDiv0 f) (by decide) (by decide) (by decide) (by
    intro c hc
    have : c = 48#8 ∨ c = 49#8 ∨ c = 50#8 ∨ c = 48#8 := by simpa using hc
    rcases this with rfl | rfl | rfl | rfl
    · exact ⟨0, by decide, by decide⟩
    · exact ⟨1, by decide, by decide⟩
    · exact ⟨2, by decide, by decide⟩
    · exact ⟨0, by decide, by decide⟩) (some true)
example : (∃ s', loadStr 8 6 0 3 [45, 48, 49, 50, 48] (exDiv fun _ => false) = .ok (0, s') ∧
      decide (s'.live = 5 ∧ (s'.obj 0).hdr.map Hdr.neg = some true ∧ (s'.obj 0).cells[0]? = some (some 15)) = true) ∧
    (∃ s', initStr 8 6 5 16 [65, 98, 99] (exDiv fun _ => false) = .ok (0, s') ∧
      decide (s'.live = 6 ∧ (s'.obj 5).hdr.map Hdr.used = some 2 ∧ (s'.obj 5).cells[1]? = some (some 10)) = true) ∧
    (∃ s', loadStr 8 6 0 3 [49, 51] (exDiv fun _ => false) = .ok (-1, s') ∧ decide (s'.live = 4) = true) ∧
    ∃ s', initStr 8 6 5 3 [49, 50] (exDiv fun k => k == 1) = .ok (-1, s') ∧ decide (s'.live = 5) = true :=
  ⟨endsIn_ok (by decide +kernel), endsIn_ok (by decide +kernel), endsIn_ok (by decide +kernel), endsIn_ok (by decide +kernel)⟩

end Verif.Mem
