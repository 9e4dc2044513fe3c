import Verif.Props.Crypt.Arc4
import Mathlib.Dynamics.PeriodicPts.Lemmas
import Mathlib.Data.Set.Finite.List
import Mathlib.Data.Finite.Prod
/-!
# C116: keys and states of ARC4
-/
namespace Verif.Arc4

/-! ### What counts of a key -/

theorem succ_mod' (i L : Nat) (hL : 0 < L) : (if i % L + 1 = L then 0 else i % L + 1) = (i + 1) % L := by
  have hlt := Nat.mod_lt i hL
  split_ifs with h
  · rw [← Nat.mod_add_mod, h, Nat.mod_self]
  · rw [← Nat.mod_add_mod, Nat.mod_eq_of_lt (a := i % L + 1) (by omega)]

theorem keyLoop_congr {key key' : List Byte} (hk : 0 < key.length) (hk' : 0 < key'.length)
    (h : ∀ n < 256, key.getD (n % key.length) 0 = key'.getD (n % key'.length) 0) : ∀ (n i : Nat) (j : Byte) (s : List Byte), i + n = 256 →
    keyLoop key n i j (i % key.length) s = keyLoop key' n i j (i % key'.length) s
  | 0, _, _, _, _ => rfl
  | n + 1, i, j, s, hi => by
    rw [keyLoop, keyLoop]
    simp only [succ_mod' i _ hk, succ_mod' i _ hk', h i (by omega)]
    exact keyLoop_congr hk hk' h n (i + 1) _ _ (by omega)

/-- Only the first 256 bytes of the key, repeated, count. -/
theorem arc4_key_same (key key' : List Byte) (hk : key ≠ []) (hk' : key' ≠ [])
    (h : ∀ n < 256, key.getD (n % key.length) 0 = key'.getD (n % key'.length) 0) : keySet key = keySet key' := by
  rw [keySet, keySet, if_neg hk, if_neg hk']
  have := keyLoop_congr (List.length_pos_iff.2 hk) (List.length_pos_iff.2 hk') h 256 0 0 ((List.range 256).map (BitVec.ofNat 8)) rfl
  rw [Nat.zero_mod, Nat.zero_mod] at this
  rw [this]

/-- A key written twice is the same key. -/
theorem arc4_key_twice (key : List Byte) (hk : key ≠ []) : keySet (key ++ key) = keySet key := by
  have hl := List.length_pos_iff.2 hk
  refine arc4_key_same _ _ (by simp [hk]) hk fun n _ => ?_
  have h1 := Nat.mod_lt n hl
  have h2 : n % (key.length + key.length) < key.length + key.length := Nat.mod_lt _ (by omega)
  have h3 : n % (key.length + key.length) % key.length = n % key.length := Nat.mod_mod_of_dvd _ ⟨2, by omega⟩
  rw [List.length_append, List.getD_eq_getElem?_getD, List.getD_eq_getElem?_getD]
  congr 1
  generalize n % (key.length + key.length) = r at h2 h3 ⊢
  by_cases hc : r < key.length
  · rw [List.getElem?_append_left hc, ← h3, Nat.mod_eq_of_lt hc]
  · rw [List.getElem?_append_right (by omega), ← h3, Nat.mod_eq_sub_mod (by omega), Nat.mod_eq_of_lt (by omega)]

/-- Bytes of the key after the first 256 have no effect. -/
theorem arc4_key_long (key tail : List Byte) (hk : 256 ≤ key.length) : keySet (key ++ tail) = keySet key := by
  have hne : key ≠ [] := by rintro rfl; simp at hk
  refine arc4_key_same _ _ (by simp [hne]) hne fun n hn => ?_
  rw [List.length_append, Nat.mod_eq_of_lt (by omega), Nat.mod_eq_of_lt (by omega), List.getD_eq_getElem?_getD, List.getD_eq_getElem?_getD,
    List.getElem?_append_left (by omega)]

/-- Keys of 256 bytes can differ and have the same state: these two leave the table as it was. -/
theorem arc4_keys_collide : ∃ key key' : List Byte, key.length = 256 ∧ key'.length = 256 ∧ key ≠ key' ∧
    keySet key = some ⟨(List.range 256).map (BitVec.ofNat 8), 0, 0⟩ ∧ keySet key' = some ⟨(List.range 256).map (BitVec.ofNat 8), 0, 0⟩ :=
  ⟨[0, 0, 255] ++ (List.range 253).map (fun i => 254 - BitVec.ofNat 8 i), [1, 255, 0] ++ (List.range 253).map (fun i => 254 - BitVec.ofNat 8 i),
    by decide +kernel, by decide +kernel, by decide +kernel, by decide +kernel, by decide +kernel⟩

example : keySet [1, 2, 3, 1, 2, 3] = keySet [1, 2, 3] := arc4_key_twice [1, 2, 3] (by decide)

example : keySet (List.replicate 256 7 ++ [1, 2]) = keySet [7] :=
  (arc4_key_long _ _ (by rw [List.length_replicate])).trans (arc4_key_same _ _ (by decide) (by decide) (by decide +kernel))

/-! ### States -/

/-- The state after one byte; it does not depend on the byte. -/
def after (c : Ctx) : Ctx := (crypt c [0]).2

theorem crypt_after : ∀ (msg : List Byte) (c : Ctx), (crypt c msg).2 = after^[msg.length] c
  | [], _ => rfl
  | v :: msg, c => by
    rw [List.length_cons, Function.iterate_succ_apply, ← crypt_after msg (after c)]
    rfl

theorem after_length (c : Ctx) (h : c.s.length = 256) : (after c).s.length = 256 := by
  simp [after, crypt, h]

theorem at8_set {s : List Byte} (h : s.length = 256) (i j v : Byte) : at8 (s.set i.toNat v) j = if i = j then v else at8 s j := by
  have hi := i.isLt
  rw [at8, at8, List.getD_eq_getElem?_getD, List.getD_eq_getElem?_getD, List.getElem?_set]
  by_cases hij : i = j
  · subst hij
    rw [if_pos rfl, if_pos (by omega), if_pos rfl]; rfl
  · rw [if_neg (fun e => hij (BitVec.eq_of_toNat_eq e)), if_neg hij]

theorem table_ext {s t : List Byte} (hs : s.length = 256) (ht : t.length = 256) (h : ∀ m, at8 s m = at8 t m) : s = t := by
  apply List.ext_getElem (by omega)
  intro i h1 h2
  have := h (BitVec.ofNat 8 i)
  rw [at8, at8, BitVec.toNat_ofNat, Nat.mod_eq_of_lt (by omega), List.getD_eq_getElem?_getD, List.getD_eq_getElem?_getD, List.getElem?_eq_getElem h1,
    List.getElem?_eq_getElem h2] at this
  exact this

/-- The step can be undone. -/
def before (c : Ctx) : Ctx :=
  ⟨(c.s.set c.x.toNat (at8 c.s c.y)).set c.y.toNat (at8 c.s c.x), c.x - 1, c.y - at8 c.s c.y⟩

theorem before_after (c : Ctx) (h : c.s.length = 256) : before (after c) = c := by
  obtain ⟨s, x, y⟩ := c
  have h' : s.length = 256 := h
  show before ⟨(s.set (x + 1).toNat (at8 s (y + at8 s (x + 1)))).set (y + at8 s (x + 1)).toNat (at8 s (x + 1)), x + 1, y + at8 s (x + 1)⟩ = _
  generalize hx : x + 1 = u
  generalize hv : y + at8 s u = v
  have l1 : (s.set u.toNat (at8 s v)).length = 256 := by simp [h']
  have l2 : ((s.set u.toNat (at8 s v)).set v.toNat (at8 s u)).length = 256 := by simp [h']
  have hy : at8 ((s.set u.toNat (at8 s v)).set v.toNat (at8 s u)) v = at8 s u := by rw [at8_set l1, if_pos rfl]
  have hu : at8 ((s.set u.toNat (at8 s v)).set v.toNat (at8 s u)) u = at8 s v := by
    rw [at8_set l1, at8_set h', if_pos rfl]
    split_ifs with e
    · rw [e]
    · rfl
  unfold before
  simp only [hy, hu]
  have ex : u - 1 = x := by rw [← hx, BitVec.add_sub_cancel]
  have ey : v - at8 s u = y := by rw [← hv, BitVec.add_sub_cancel]
  rw [ex, ey]
  congr 1
  refine table_ext (by simp [h']) h' fun m => ?_
  rw [at8_set (by simp [h']), at8_set l2, at8_set l1, at8_set h']
  split_ifs with e1 e2 e3 e4 <;> simp_all

/-- Two states that differ never become the same, whatever is encrypted: different states do not give streams that join. -/
theorem arc4_no_merge (c c' : Ctx) (h : c.s.length = 256) (h' : c'.s.length = 256) (msg msg' : List Byte) (hl : msg.length = msg'.length)
    (he : (crypt c msg).2 = (crypt c' msg').2) : c = c' := by
  rw [crypt_after, crypt_after, hl] at he
  generalize msg'.length = n at he
  induction n generalizing c c' with
  | zero => exact he
  | succ n ih =>
    rw [Function.iterate_succ_apply, Function.iterate_succ_apply] at he
    have := ih (after c) (after c') (after_length c h) (after_length c' h') he
    rw [← before_after c h, this, before_after c' h']

/-- Every state comes back: the key stream is periodic from its first byte on. -/
theorem arc4_periodic (c : Ctx) (h : c.s.length = 256) : ∃ n > 0, ∀ msg : List Byte, msg.length = n → (crypt c msg).2 = c := by
  let T := { c : Ctx // c.s.length = 256 }
  have hb : Finite Byte := Finite.of_injective (fun b : Byte => b.toFin) fun a b h => congrArg BitVec.ofFin h
  have hfl : Finite { l : List Byte // l.length = 256 } := (List.finite_length_eq Byte 256).to_subtype
  have hT : Finite T := Finite.of_injective (fun c : T => ((⟨c.1.s, c.2⟩ : { l : List Byte // l.length = 256 }), c.1.x, c.1.y)) (by
    rintro ⟨⟨s, x, y⟩, hs⟩ ⟨⟨s', x', y'⟩, hs'⟩ he
    simp only [Prod.mk.injEq, Subtype.mk.injEq] at he
    obtain ⟨rfl, rfl, rfl⟩ := he
    rfl)
  let f : T → T := fun c => ⟨after c.1, after_length c.1 c.2⟩
  have hf : Function.Injective f := fun a b e => by
    have := congrArg Subtype.val e
    apply Subtype.ext
    rw [← before_after a.1 a.2, ← before_after b.1 b.2]
    exact congrArg before this
  obtain ⟨n, hn, hp⟩ := hf.mem_periodicPts ⟨c, h⟩
  refine ⟨n, hn, fun msg hm => ?_⟩
  have hi : ∀ (m : Nat) (c : T), (f^[m] c).1 = after^[m] c.1 := fun m => by
    induction m with
    | zero => exact fun _ => rfl
    | succ m ih => intro c; rw [Function.iterate_succ_apply, Function.iterate_succ_apply, ih]
  rw [crypt_after, hm, ← hi n ⟨c, h⟩]
  exact congrArg Subtype.val hp

theorem keySet_length (key : List Byte) (hk : key ≠ []) : ∃ s, keySet key = some ⟨s, 0, 0⟩ ∧ s.length = 256 := by
  obtain ⟨s, h1, h2⟩ := keySet_spec key hk
  exact ⟨s, h1, h2.1⟩

-- with a key set
example : ∃ c, keySet [1, 2, 3] = some c ∧ ∃ n > 0, ∀ msg : List Byte, msg.length = n → (crypt c msg).2 = c := by
  obtain ⟨s, h1, h2⟩ := keySet_length [1, 2, 3] (by decide)
  exact ⟨_, h1, arc4_periodic _ h2⟩

/-- No key and no amount of data leads to a state with `y = x + 1` and 1 at `y`, from which the generator would run in a short cycle. -/
theorem arc4_finney (key : List Byte) (hk : key ≠ []) : ∃ c, keySet key = some c ∧ ∀ msg : List Byte,
    ¬ ((crypt c msg).2.y = (crypt c msg).2.x + 1 ∧ at8 (crypt c msg).2.s (crypt c msg).2.y = 1) := by
  obtain ⟨s, h1, h2⟩ := keySet_length key hk
  refine ⟨_, h1, fun msg => ?_⟩
  rw [crypt_after]
  have hlen : ∀ n, (after^[n] ⟨s, 0, 0⟩).s.length = 256 := fun n => by
    induction n with
    | zero => exact h2
    | succ n ih => rw [Function.iterate_succ_apply']; exact after_length _ ih
  generalize msg.length = n
  induction n with
  | zero => rintro ⟨h, -⟩; exact absurd (show (0 : Byte) = 0 + 1 from h) (by decide)
  | succ n ih =>
    rw [Function.iterate_succ_apply']
    have hl := hlen n
    generalize after^[n] ⟨s, 0, 0⟩ = c at ih hl
    obtain ⟨s, x, y⟩ := c
    have h' : s.length = 256 := hl
    show ¬ (y + at8 s (x + 1) = x + 1 + 1 ∧
      at8 ((s.set (x + 1).toNat (at8 s (y + at8 s (x + 1)))).set (y + at8 s (x + 1)).toNat (at8 s (x + 1))) (y + at8 s (x + 1)) = 1)
    rintro ⟨a, b⟩
    rw [at8_set (by simp [h']), if_pos rfl] at b
    rw [b] at a
    have e : y = x + 1 := by
      have := congrArg (· - 1#8) a
      simpa [BitVec.add_sub_cancel] using this
    exact ih ⟨e, by show at8 s y = 1; rw [e, b]⟩

-- the other way, such a state exists among the permutations, and stays one
example : ∃ c : Ctx, c.y = c.x + 1 ∧ at8 c.s c.y = 1 ∧ (after c).y = (after c).x + 1 ∧ at8 (after c).s (after c).y = 1 :=
  ⟨⟨(List.range 256).map (BitVec.ofNat 8), 0, 1⟩, by decide +kernel, by decide +kernel, by decide +kernel, by decide +kernel⟩

end Verif.Arc4
