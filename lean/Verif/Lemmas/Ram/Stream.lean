import Verif.Model.Ram.Stream
import Verif.Lemmas.Ram.Cfb8
import Verif.Lemmas.Bytes
import Verif.Spec.Ram
import Verif.Props.Crypt.Arc4
import Verif.Props.Crypt.Affine
import Verif.Props.Crypt.Trivium
import Verif.Props.Crypt.Hill
/-! Ciphers that work byte by byte, on memory. -/
namespace Verif.Ram

/-- A loop that reads a byte, changes it with `F i` in step `i`, and writes it. -/
def byteLoop (F : Nat → Byte → Byte) : Nat → Nat → Ram → Nat → Nat → Option Ram
  | 0, _, R, _, _ => some R
  | n + 1, i, R, d, s => (load R s).bind fun v => (store R d (F i v)).bind fun R => byteLoop F n (i + 1) R (d + 1) (s + 1)

/-- What it should compute. -/
def mapFrom (F : Nat → Byte → Byte) : Nat → List Byte → List Byte
  | _, [] => []
  | i, v :: l => F i v :: mapFrom F (i + 1) l

theorem mapFrom_length (F : Nat → Byte → Byte) : ∀ (l : List Byte) (i : Nat), (mapFrom F i l).length = l.length
  | [], _ => rfl
  | _ :: l, i => by rw [mapFrom, List.length_cons, mapFrom_length F l, List.length_cons]

theorem mapFrom_get (F : Nat → Byte → Byte) : ∀ (l : List Byte) (i j : Nat), (mapFrom F i l)[j]? = (l[j]?).map (F (i + j))
  | [], _, _ => rfl
  | _ :: _, _, 0 => rfl
  | _ :: l, i, j + 1 => by
    rw [mapFrom, List.getElem?_cons_succ, List.getElem?_cons_succ, mapFrom_get F l]
    congr 2; omega

/-- Output not starting inside the input. -/
theorem byteLoop_ram (F : Nat → Byte → Byte) : ∀ (n i : Nat) (R : Ram) (d s : Nat), R.Owned s n → R.Owned d n → (d ≤ s ∨ s + n ≤ d) →
    byteLoop F n i R d s = some (R.put d (mapFrom F i (R.bytes s n)))
  | 0, _, R, _, _, _, _, _ => by simp [byteLoop, mapFrom]
  | n + 1, i, R, d, s, os, od, h => by
    rw [byteLoop, load_eq (by ownof os), Option.bind_some, store_eq (by ownof od), Option.bind_some,
      byteLoop_ram F n _ _ _ _ (by ownof os) (by ownof od) (by omega), bytes_put_apart (by rw [List.length_singleton]; apt), bytes_cons, mapFrom,
      show F i (R.mem s) :: mapFrom F (i + 1) (R.bytes (s + 1) n) = [F i (R.mem s)] ++ mapFrom F (i + 1) (R.bytes (s + 1) n) from rfl, put_append]
    rfl

/-- Output behind the start of the input: in the end each output byte belongs to what is then in the place of the input byte. -/
theorem byteLoop_behind (F : Nat → Byte → Byte) : ∀ (n i : Nat) (R : Ram) (d s : Nat), R.Owned s n → R.Owned d n → s < d →
    ∃ R', byteLoop F n i R d s = some R' ∧ R'.own = R.own ∧ R'.tmp = R.tmp ∧ (∀ x, Outside x d n → R'.mem x = R.mem x) ∧ ∀ j < n, R'.mem (d + j) = F (i + j) (R'.mem (s + j))
  | 0, _, R, _, _, _, _, _ => ⟨R, rfl, rfl, rfl, fun _ _ => rfl, by omega⟩
  | n + 1, i, R, d, s, os, od, h => by
    rw [byteLoop, load_eq (by ownof os), Option.bind_some, store_eq (by ownof od), Option.bind_some]
    have l1 : ([F i (R.mem s)] : List Byte).length = 1 := rfl
    obtain ⟨R', e, o, t, f, c⟩ := byteLoop_behind F n (i + 1) (R.put d [F i (R.mem s)]) (d + 1) (s + 1) (by ownof os) (by ownof od) (by omega)
    refine ⟨R', e, o, t, fun x hx => ?_, fun j hj => ?_⟩
    · unfold Outside at hx
      rw [f x (by unfold Outside; omega), put_mem_out (by rw [l1]; omega)]
    · cases j with
      | zero =>
        rw [Nat.add_zero, Nat.add_zero, Nat.add_zero, f d (by unfold Outside; omega), f s (by unfold Outside; omega), put_mem_out (x := s) (by omega)]
        exact put_mem_in (i := 0) (by simp)
      | succ j =>
        have := c j (by omega)
        rwa [show d + 1 + j = d + (j + 1) by omega, show i + 1 + j = i + (j + 1) by omega, show s + 1 + j = s + (j + 1) by omega] at this

/-- If the output starts inside the input the result can be wrong. -/
theorem byteLoop_wrong {F : Nat → Byte → Byte} {n d s : Nat} (h1 : s < d) (h2 : d < s + n) {x y : Byte} (h : F (d - s) (F 0 x) ≠ F (d - s) y) :
    ∃ R R', (∀ a, R.own a = true) ∧ byteLoop F n 0 R d s = some R' ∧ R'.bytes d n ≠ mapFrom F 0 (R.bytes s n) := by
  have all : ∀ a m, Ram.Owned ⟨fun _ => true, fun z => if z = s then x else y, []⟩ a m := fun _ _ _ _ => rfl
  obtain ⟨R', e, _, _, f, c⟩ := byteLoop_behind F n 0 ⟨fun _ => true, fun z => if z = s then x else y, []⟩ d s (all _ _) (all _ _) h1
  refine ⟨_, R', fun _ => rfl, e, fun he => ?_⟩
  have hb := congrArg (·[d - s]?) he
  simp only [mapFrom_get, bytes_get] at hb
  rw [if_pos (by omega), if_pos (by omega), Option.map_some, Option.some.injEq, c _ (by omega), show s + (d - s) = d by omega] at hb
  have c0 := c 0 (by omega)
  rw [Nat.add_zero, Nat.add_zero, Nat.add_zero, f s (by unfold Outside; omega)] at c0
  dsimp only at hb c0
  rw [if_pos rfl] at c0
  rw [c0, Nat.zero_add, if_neg (by omega)] at hb
  exact h hb

/-! ### ARC4 -/

/-- Key stream byte `i`. -/
def arc4Key (c : Arc4.Ctx) (i : Nat) : Byte := ((Arc4.crypt c (List.replicate (i + 1) 0)).1[i]?).getD 0

/-- The context after one step, and the byte. -/
def arc4Step (c : Arc4.Ctx) : Arc4.Ctx × Byte :=
  let x := c.x + 1
  let a := Arc4.at8 c.s x
  let y := c.y + a
  let b := Arc4.at8 c.s y
  let s := (c.s.set x.toNat b).set y.toNat a
  (⟨s, x, y⟩, Arc4.at8 s (a + b))

theorem crypt_cons (c : Arc4.Ctx) (v : Byte) (l : List Byte) :
    Arc4.crypt c (v :: l) = ((v ^^^ (arc4Step c).2) :: (Arc4.crypt (arc4Step c).1 l).1, (Arc4.crypt (arc4Step c).1 l).2) := rfl

theorem arc4Crypt_succ (n : Nat) (R : Ram) (c : Arc4.Ctx) (d s : Nat) : arc4Crypt (n + 1) R c d s =
    (load R s).bind fun v => (store R d (v ^^^ (arc4Step c).2)).bind fun R => arc4Crypt n R (arc4Step c).1 (d + 1) (s + 1) := rfl

theorem arc4Key_zero (c : Arc4.Ctx) : arc4Key c 0 = (arc4Step c).2 := by
  rw [arc4Key, List.replicate_one, crypt_cons]
  simp

theorem arc4Key_succ (c : Arc4.Ctx) (i : Nat) : arc4Key c (i + 1) = arc4Key (arc4Step c).1 i := by
  rw [arc4Key, List.replicate_succ, crypt_cons, List.getElem?_cons_succ, ← arc4Key]

theorem byteLoop_congr {F F' : Nat → Byte → Byte} {i i' : Nat} (h : ∀ j v, F (i + j) v = F' (i' + j) v) : ∀ (n : Nat) (R : Ram) (d s : Nat),
    byteLoop F n i R d s = byteLoop F' n i' R d s := by
  intro n
  induction n generalizing i i' with
  | zero => intros; rfl
  | succ n ih =>
    intro R d s
    have h0 := fun v => h 0 v
    simp only [Nat.add_zero] at h0
    rw [byteLoop, byteLoop]
    simp only [h0]
    congr 1; funext v; congr 1; funext R
    exact ih (fun j v => by rw [show i + 1 + j = i + (j + 1) by omega, show i' + 1 + j = i' + (j + 1) by omega]; exact h (j + 1) v) R _ _

theorem mapFrom_congr {F F' : Nat → Byte → Byte} : ∀ (l : List Byte) {i i' : Nat}, (∀ j v, F (i + j) v = F' (i' + j) v) → mapFrom F i l = mapFrom F' i' l
  | [], _, _, _ => rfl
  | v :: l, i, i', h => by
    rw [mapFrom, mapFrom, mapFrom_congr (F' := F') (i' := i' + 1) l (fun j v => by rw [show i + 1 + j = i + (j + 1) by omega, show i' + 1 + j = i' + (j + 1) by omega]; exact h (j + 1) v)]
    congr 1
    exact h 0 v

/-- ARC4 as a loop over bytes; the context does not depend on the data. -/
theorem arc4_byteLoop : ∀ (n : Nat) (R : Ram) (c : Arc4.Ctx) (d s : Nat),
    arc4Crypt n R c d s = (byteLoop (fun i v => v ^^^ arc4Key c i) n 0 R d s).map fun R' => (R', (Arc4.crypt c (List.replicate n 0)).2)
  | 0, _, _, _, _ => rfl
  | n + 1, R, c, d, s => by
    rw [arc4Crypt_succ, byteLoop, List.replicate_succ, crypt_cons, arc4Key_zero]
    cases load R s with
    | none => rfl
    | some v =>
      rw [Option.bind_some, Option.bind_some]
      cases store R d (v ^^^ (arc4Step c).2) with
      | none => rfl
      | some R1 =>
        rw [Option.bind_some, Option.bind_some, arc4_byteLoop n R1 (arc4Step c).1]
        rw [byteLoop_congr (F' := fun i v => v ^^^ arc4Key c i) (i' := 0 + 1) fun j v => by
          show v ^^^ _ = v ^^^ _
          rw [show 0 + 1 + j = j + 1 by omega, arc4Key_succ, Nat.zero_add]]

theorem arc4_mapFrom : ∀ (l : List Byte) (c : Arc4.Ctx), Arc4.crypt c l = (mapFrom (fun i v => v ^^^ arc4Key c i) 0 l, (Arc4.crypt c (List.replicate l.length 0)).2)
  | [], _ => rfl
  | v :: l, c => by
    rw [crypt_cons, arc4_mapFrom l, List.length_cons, List.replicate_succ, crypt_cons, mapFrom, arc4Key_zero]
    rw [mapFrom_congr (F' := fun i v => v ^^^ arc4Key c i) (i' := 0 + 1) l fun j v => by
      show v ^^^ _ = v ^^^ _
      rw [show 0 + 1 + j = j + 1 by omega, arc4Key_succ, Nat.zero_add]]

/-! ### Affine -/

/-- The position in the key after `i` steps from `k`. -/
def keyPos (n : Nat) : Nat → Nat → Nat
  | k, 0 => k
  | k, i + 1 => keyPos n (if k + 1 = n then 0 else k + 1) i

theorem affineEnc_ram {c : Affine.Ctx} : ∀ (n k : Nat) (R : Ram) (d s : Nat) {out : List Byte}, R.Owned s n → R.Owned d n → (d ≤ s ∨ s + n ≤ d) →
    Affine.encLoop c k (R.bytes s n) = some out → affineEnc c n k R d s = some (R.put d out)
  | 0, _, R, _, _, out, _, _, _, h => by
    simp only [bytes_zero, Affine.encLoop, Option.some.injEq] at h
    subst h; simp [affineEnc]
  | n + 1, k, R, d, s, out, os, od, hp, h => by
    rw [bytes_cons, Affine.encLoop] at h
    rw [affineEnc]
    cases ha : c.keya[k]? with
    | none => rw [ha] at h; cases h
    | some a =>
      cases hb : c.keyb[k]? with
      | none => rw [ha, hb] at h; cases h
      | some b =>
        rw [ha, hb] at h
        dsimp only at h ⊢
        obtain ⟨o, ho, he⟩ := Option.map_eq_some_iff.1 h
        subst he
        have l1 : ([R.mem s * a + b] : List Byte).length = 1 := rfl
        rw [load_eq (by ownof os), Option.bind_some, store_eq (by ownof od), Option.bind_some,
          affineEnc_ram n _ _ _ _ (by ownof os) (by ownof od) (by omega) (by rw [bytes_put_apart (by rw [l1]; apt)]; exact ho),
          show (R.mem s * a + b) :: o = [R.mem s * a + b] ++ o from rfl, put_append, l1]

theorem affineDec_ram {c : Affine.Ctx} : ∀ (n k : Nat) (R : Ram) (d s : Nat) {out : List Byte}, R.Owned s n → R.Owned d n → (d ≤ s ∨ s + n ≤ d) →
    Affine.decLoop c k (R.bytes s n) = some out → affineDec c n k R d s = some (R.put d out)
  | 0, _, R, _, _, out, _, _, _, h => by
    simp only [bytes_zero, Affine.decLoop, Option.some.injEq] at h
    subst h; simp [affineDec]
  | n + 1, k, R, d, s, out, os, od, hp, h => by
    rw [bytes_cons, Affine.decLoop] at h
    rw [affineDec]
    cases ha : c.inva[k]? with
    | none => rw [ha] at h; cases h
    | some a =>
      cases hb : c.keyb[k]? with
      | none => rw [ha, hb] at h; cases h
      | some b =>
        rw [ha, hb] at h
        dsimp only at h ⊢
        obtain ⟨o, ho, he⟩ := Option.map_eq_some_iff.1 h
        subst he
        have l1 : ([(R.mem s - b) * a] : List Byte).length = 1 := rfl
        rw [load_eq (by ownof os), Option.bind_some, store_eq (by ownof od), Option.bind_some,
          affineDec_ram n _ _ _ _ (by ownof os) (by ownof od) (by omega) (by rw [bytes_put_apart (by rw [l1]; apt)]; exact ho),
          show ((R.mem s - b) * a) :: o = [(R.mem s - b) * a] ++ o from rfl, put_append, l1]

/-- The affine cipher with a good key as a loop over bytes. -/
theorem affine_byteLoop {c : Affine.Ctx} (hc : Affine.Ok c) : ∀ (n k : Nat) (R : Ram) (d s : Nat), k < c.keylen →
    affineEnc c n k R d s = byteLoop (fun i v => v * ((c.keya[keyPos c.keylen k i]?).getD 0) + ((c.keyb[keyPos c.keylen k i]?).getD 0)) n 0 R d s
  | 0, _, _, _, _, _ => rfl
  | n + 1, k, R, d, s, hk => by
    obtain ⟨a, b, i, ha, hb, -, -⟩ := hc.inv k hk
    rw [affineEnc, byteLoop, ha, hb]
    simp only [keyPos, ha, hb, Option.getD_some]
    congr 1; funext v; congr 1; funext R
    rw [affine_byteLoop hc n _ R _ _ (Affine.next_lt hc hk)]
    exact byteLoop_congr (fun j v => by rw [show 0 + 1 + j = j + 1 by omega, Nat.zero_add]; rfl) n R _ _

theorem affine_mapFrom {c : Affine.Ctx} (hc : Affine.Ok c) : ∀ (l : List Byte) (k : Nat), k < c.keylen →
    Affine.encLoop c k l = some (mapFrom (fun i v => v * ((c.keya[keyPos c.keylen k i]?).getD 0) + ((c.keyb[keyPos c.keylen k i]?).getD 0)) 0 l)
  | [], _, _ => rfl
  | v :: l, k, hk => by
    obtain ⟨a, b, i, ha, hb, -, -⟩ := hc.inv k hk
    rw [Affine.encLoop, ha, hb, mapFrom]
    dsimp only
    rw [affine_mapFrom hc l _ (Affine.next_lt hc hk), Option.map_some]
    simp only [keyPos, ha, hb, Option.getD_some]
    rw [mapFrom_congr (F' := fun i v => v * ((c.keya[keyPos c.keylen k i]?).getD 0) + ((c.keyb[keyPos c.keylen k i]?).getD 0)) (i' := 0 + 1) l fun j v => by rw [show 0 + 1 + j = j + 1 by omega, Nat.zero_add]; rfl]

theorem keyPos_lt {c : Affine.Ctx} (hc : Affine.Ok c) : ∀ (i k : Nat), k < c.keylen → keyPos c.keylen k i < c.keylen
  | 0, _, h => h
  | i + 1, _, h => keyPos_lt hc i _ (Affine.next_lt hc h)

/-! ### Trivium -/

theorem read32_eq {R : Ram} {a : Nat} (h : R.Owned a 4) : read32 R a = some (read32le (R.mem a) (R.mem (a + 1)) (R.mem (a + 2)) (R.mem (a + 3))) := if_pos h

theorem write32_eq {R : Ram} {a : Nat} {z : BitVec 32} (h : R.Owned a 4) : write32 R a z = some (R.put a (write32le z)) := if_pos h

theorem triviumTail_ram : ∀ (n : Nat) (R : Ram) (z : BitVec 32) (d s : Nat), R.Owned s n → R.Owned d n → (d ≤ s ∨ s + n ≤ d) →
    triviumTail n R z d s = some (R.put d (Trivium.tail z (R.bytes s n)))
  | 0, R, _, _, _, _, _, _ => by simp [triviumTail, Trivium.tail]
  | n + 1, R, z, d, s, os, od, h => by
    rw [triviumTail, load_eq (by ownof os), Option.bind_some, store_eq (by ownof od), Option.bind_some,
      triviumTail_ram n _ _ _ _ (by ownof os) (by ownof od) (by omega), bytes_put_apart (by rw [List.length_singleton]; apt), bytes_cons, Trivium.tail,
      show (R.mem s ^^^ z.setWidth 8) :: Trivium.tail (z >>> 8) (R.bytes (s + 1) n) = [R.mem s ^^^ z.setWidth 8] ++ Trivium.tail (z >>> 8) (R.bytes (s + 1) n) from rfl, put_append]
    rfl

theorem bytes_four (R : Ram) (a n : Nat) : R.bytes a (n + 4) = R.mem a :: R.mem (a + 1) :: R.mem (a + 2) :: R.mem (a + 3) :: R.bytes (a + 4) n := by
  rw [bytes_cons, bytes_cons, bytes_cons, bytes_cons]

theorem loop_short (w : Trivium.W) (R : Ram) (a : Nat) {r : Nat} (h : r < 4) (h0 : 0 < r) :
    Trivium.loop w (R.bytes a r) = (Trivium.tail (Trivium.out w) (R.bytes a r), Trivium.update w) := by
  obtain rfl | rfl | rfl : r = 1 ∨ r = 2 ∨ r = 3 := by omega
  all_goals simp only [bytes_cons, bytes_zero, Trivium.loop]

theorem triviumLoop_ram : ∀ (q r : Nat) (R : Ram) (w : Trivium.W) (d s : Nat), r < 4 → R.Owned s (4 * q + r) → R.Owned d (4 * q + r) → (d ≤ s ∨ s + (4 * q + r) ≤ d) →
    triviumLoop q r R w d s = some (R.put d (Trivium.loop w (R.bytes s (4 * q + r))).1, (Trivium.loop w (R.bytes s (4 * q + r))).2)
  | 0, r, R, w, d, s, hr, os, od, h => by
    rw [triviumLoop]
    rw [Nat.mul_zero, Nat.zero_add] at *
    by_cases h0 : 0 < r
    · rw [if_pos h0, triviumTail_ram _ _ _ _ _ os od h, loop_short w R s hr h0]; rfl
    · have : r = 0 := by omega
      subst this
      simp [Trivium.loop]
  | q + 1, r, R, w, d, s, hr, os, od, h => by
    have hl : ∀ z : BitVec 32, (write32le z).length = 4 := fun _ => rfl
    rw [show 4 * (q + 1) + r = 4 * q + r + 4 by omega] at *
    rw [triviumLoop, read32_eq (by ownof os), Option.bind_some, write32_eq (by ownof od), Option.bind_some,
      triviumLoop_ram q r _ _ _ _ hr (by ownof os) (by ownof od) (by omega), bytes_put_apart (by rw [hl]; apt), bytes_four, Trivium.loop]
    dsimp only
    rw [put_append, hl]

theorem trivium_loop_get (w : Trivium.W) (l : List Byte) (j : Nat) :
    (Trivium.loop w l).1[j]? = (l[j]?).map (· ^^^ TriviumS.byte (Trivium.abs w) j) := by
  rw [(Trivium.loop_eq l.length w l le_rfl).1, List.getElem?_zipWith]
  by_cases h : j < l.length
  · rw [List.getElem?_eq_getElem h, Trivium.stream, List.getElem?_map, List.getElem?_range h]; rfl
  · rw [List.getElem?_eq_none (by omega)]; rfl

theorem byte_update (w : Trivium.W) (j : Nat) : TriviumS.byte (Trivium.abs (Trivium.update w)) j = TriviumS.byte (Trivium.abs w) (4 + j) := by
  rw [Trivium.abs_update, show 4 + j = 4 * 1 + j by omega, Trivium.byte_add]

/-- Output at least a word behind the start of the input. -/
theorem triviumLoop_behind : ∀ (q r : Nat) (R : Ram) (w : Trivium.W) (d s : Nat), r < 4 → R.Owned s (4 * q + r) → R.Owned d (4 * q + r) → s + 4 ≤ d →
    ∃ R' w', triviumLoop q r R w d s = some (R', w') ∧ R'.own = R.own ∧ R'.tmp = R.tmp ∧ (∀ x, Outside x d (4 * q + r) → R'.mem x = R.mem x) ∧
      ∀ j < 4 * q + r, R'.mem (d + j) = R'.mem (s + j) ^^^ TriviumS.byte (Trivium.abs w) j
  | 0, r, R, w, d, s, hr, os, od, h => by
    have e := triviumLoop_ram 0 r R w d s hr os od (by omega)
    rw [Nat.mul_zero, Nat.zero_add] at *
    have hl : (Trivium.loop w (R.bytes s r)).1.length = r := by
      rw [(Trivium.loop_eq _ w _ le_rfl).1]; simp [Trivium.stream]
    refine ⟨_, _, e, rfl, rfl, fun x hx => put_mem_out (by rw [hl]; exact hx), fun j hj => ?_⟩
    have hg := trivium_loop_get w (R.bytes s r) j
    rw [bytes_get, if_pos hj, List.getElem?_eq_getElem (by omega), Option.map_some, Option.some.injEq] at hg
    rw [put_mem_in (by omega), put_mem_out (x := s + j) (by omega), hg]
  | q + 1, r, R, w, d, s, hr, os, od, h => by
    have hl : ∀ z : BitVec 32, (write32le z).length = 4 := fun _ => rfl
    have e1 := triviumLoop_ram 1 0 R w d s (by omega) (by ownof os) (by ownof od) (by omega)
    rw [show 4 * (q + 1) + r = 4 * q + r + 4 by omega] at *
    rw [triviumLoop, read32_eq (by ownof os), Option.bind_some, write32_eq (by ownof od), Option.bind_some] at e1 ⊢
    rw [triviumLoop, if_neg (by omega), Option.some.injEq, Prod.mk.injEq] at e1
    have hx := e1.1
    generalize hW : write32le (read32le (R.mem s) (R.mem (s + 1)) (R.mem (s + 2)) (R.mem (s + 3)) ^^^ Trivium.out w) = X at *
    have hX : X.length = 4 := by rw [← hW]; rfl
    obtain ⟨R', w', e', o', t', f', c'⟩ := triviumLoop_behind q r (R.put d X) (Trivium.update w) (d + 4) (s + 4) hr (by ownof os) (by ownof od) (by omega)
    refine ⟨R', w', e', o', t', fun x hx => ?_, fun j hj => ?_⟩
    · unfold Outside at hx
      rw [f' x (by unfold Outside; omega), put_mem_out (by rw [hX]; omega)]
    · by_cases h4 : j < 4
      · rw [f' (d + j) (by unfold Outside; omega), f' (s + j) (by unfold Outside; omega), hx, put_mem_out (x := s + j)]
        · have hg := trivium_loop_get w (R.bytes s (4 * 1 + 0)) j
          have hl4 : (Trivium.loop w (R.bytes s (4 * 1 + 0))).1.length = 4 := by rw [(Trivium.loop_eq _ w _ le_rfl).1]; simp [Trivium.stream]
          rw [bytes_get, if_pos (by omega), List.getElem?_eq_getElem (by omega), Option.map_some, Option.some.injEq] at hg
          rw [put_mem_in (by omega), hg]
        · omega
      · have := c' (j - 4) (by omega)
        rw [byte_update, show d + 4 + (j - 4) = d + j by omega, show s + 4 + (j - 4) = s + j by omega, show 4 + (j - 4) = j by omega] at this
        exact this

/-! ### Hill -/

/-- The loop on memory is the loop on the message filled with zeros, and writes all of its output. -/
theorem hillOperate_ram {n : Nat} (hn : 0 < n) (key : List Byte) : ∀ (k : Nat) (R : Ram) (d s len z : Nat), len ≤ k → (len + z) % n = 0 → z < n → R.Owned s len →
    R.Owned d (len + z) → (d ≤ s ∨ s + len ≤ d) → ∃ out, Hill.operateLoop n key k (R.bytes s len ++ List.replicate z 0) = .ok out ∧ out.length = len + z ∧
      hillOperate n key k R d s len = some (R.put d out)
  | k, R, d, s, 0, z, _, hm, hz, _, _, _ => by
    have : z = 0 := by
      rw [Nat.zero_add, Nat.mod_eq_of_lt hz] at hm; exact hm
    subst this
    refine ⟨[], by simp [Hill.operateLoop], rfl, by simp [hillOperate]⟩
  | 0, _, _, _, len + 1, _, h, _, _, _, _, _ => by omega
  | k + 1, R, d, s, len + 1, z, h, hm, hz, os, od, ha => by
    have hge : n ≤ len + 1 + z := Nat.le_of_dvd (by omega) (Nat.dvd_of_mod_eq_zero hm)
    have hv : ∀ v, (Hill.vecMul key v n).length = n := fun v => by simp [Hill.vecMul]
    by_cases hs : n ≤ len + 1
    · have hm' : (len + 1 - n + z) % n = 0 := by
        rw [show len + 1 - n + z = len + 1 + z - n by omega, ← Nat.mod_eq_sub_mod hge, hm]
      obtain ⟨out, e1, e2, e3⟩ := hillOperate_ram hn key k (R.put d (Hill.vecMul key (R.bytes s n) n)) (d + n) (s + n) (len + 1 - n) z (by omega) hm' hz
        (by ownof os) (by ownof od) (by omega)
      rw [bytes_put_apart (by rw [hv]; apt)] at e1
      refine ⟨Hill.vecMul key (R.bytes s n) n ++ out, ?_, by rw [List.length_append, hv, e2]; omega, ?_⟩
      · have hc : ∃ x l, R.bytes s (len + 1) ++ List.replicate z 0 = x :: l := ⟨_, _, by rw [bytes_cons]; rfl⟩
        have ht : (R.bytes s (len + 1) ++ List.replicate z 0).take n = R.bytes s n := by
          rw [List.take_append_of_le_length (by rw [bytes_length]; omega), ← bytes_take rfl hs]
        have hd : (R.bytes s (len + 1) ++ List.replicate z 0).drop n = R.bytes (s + n) (len + 1 - n) ++ List.replicate z 0 := by
          rw [List.drop_append_of_le_length (by rw [bytes_length]; omega), ← bytes_drop rfl hs]
        obtain ⟨x, l, hc⟩ := hc
        rw [hc] at ht hd ⊢
        have hl : n ≤ (x :: l).length := by rw [← hc]; simp; omega
        unfold Hill.operateLoop
        dsimp only
        rw [Nat.min_eq_left hl, if_neg (by omega), ht, hd, e1]
        rfl
      · unfold hillOperate
        dsimp only
        rw [Nat.min_eq_left hs, if_pos ⟨by ownof os, by ownof od⟩, Nat.sub_self, List.replicate_zero, List.append_nil, e3, put_append, hv]
    · have hz' : z = n - (len + 1) := by
        have : len + 1 + z < 2 * n := by omega
        have h2 : (len + 1 + z) - n = 0 := by
          have := Nat.mod_eq_sub_mod hge
          rw [hm, Nat.mod_eq_of_lt (by omega)] at this; omega
        omega
      refine ⟨Hill.vecMul key (R.bytes s (len + 1) ++ List.replicate z 0) n, ?_, by rw [hv]; omega, ?_⟩
      · have hc : ∃ x l, R.bytes s (len + 1) ++ List.replicate z 0 = x :: l := ⟨_, _, by rw [bytes_cons]; rfl⟩
        obtain ⟨x, l, hc⟩ := hc
        have hl : (x :: l).length = n := by rw [← hc]; simp; omega
        rw [hc]
        unfold Hill.operateLoop
        dsimp only
        rw [hl, Nat.min_self, if_neg (by omega), List.take_of_length_le (by omega), List.drop_of_length_le (by omega)]
        cases k <;> simp [Hill.operateLoop, bind, Except.bind, pure, Except.pure]
      · unfold hillOperate
        dsimp only
        rw [Nat.min_eq_right (by omega), if_pos ⟨os, by ownof od⟩, hz', Nat.sub_self]
        cases k <;> rfl

/-- If it is defined the output owns the length rounded up. -/
theorem hillOperate_needs {n : Nat} (hn : 0 < n) (key : List Byte) : ∀ (k : Nat) (R R' : Ram) (d s len z : Nat), (len + z) % n = 0 → z < n →
    hillOperate n key k R d s len = some R' → R.Owned d (len + z)
  | k, R, R', d, s, 0, z, hm, hz, _ => by
    rw [Nat.zero_add, Nat.mod_eq_of_lt hz] at hm
    subst hm
    intro i hi
    omega
  | 0, _, _, _, _, len + 1, _, _, _, h => by simp [hillOperate] at h
  | k + 1, R, R', d, s, len + 1, z, hm, hz, h => by
    have hge : n ≤ len + 1 + z := Nat.le_of_dvd (by omega) (Nat.dvd_of_mod_eq_zero hm)
    unfold hillOperate at h
    dsimp only at h
    split at h
    case isFalse => cases h
    case isTrue ho =>
    by_cases hs : n ≤ len + 1
    · have hm' : (len + 1 - n + z) % n = 0 := by
        rw [show len + 1 - n + z = len + 1 + z - n by omega, ← Nat.mod_eq_sub_mod hge, hm]
      rw [Nat.min_eq_left hs] at h
      have ih := hillOperate_needs hn key k _ _ _ _ _ z hm' hz h
      rw [owned_put] at ih
      intro i hi
      by_cases hi' : i < n
      · exact ho.2 i hi'
      · have := ih (i - n) (by omega)
        rwa [show d + n + (i - n) = d + i by omega] at this
    · have h2 : (len + 1 + z) - n = 0 := by
        have := Nat.mod_eq_sub_mod hge
        rw [hm, Nat.mod_eq_of_lt (by omega)] at this; omega
      intro i hi
      exact ho.2 i (by omega)

theorem triviumTail_byteLoop : ∀ (n : Nat) (R : Ram) (z : BitVec 32) (d s : Nat), triviumTail n R z d s = byteLoop (fun i v => v ^^^ (z >>> (8 * i)).setWidth 8) n 0 R d s
  | 0, _, _, _, _ => rfl
  | n + 1, R, z, d, s => by
    rw [triviumTail, byteLoop]
    simp only [Nat.mul_zero, BitVec.ushiftRight_zero]
    congr 1; funext v; congr 1; funext R
    rw [triviumTail_byteLoop n]
    exact byteLoop_congr (fun j v => by rw [show 8 * (0 + 1 + j) = 8 + 8 * j by omega, BitVec.shiftRight_add, Nat.zero_add]) n R _ _

theorem tail_mapFrom : ∀ (l : List Byte) (z : BitVec 32), Trivium.tail z l = mapFrom (fun i v => v ^^^ (z >>> (8 * i)).setWidth 8) 0 l
  | [], _ => rfl
  | v :: l, z => by
    rw [Trivium.tail, mapFrom, tail_mapFrom l]
    simp only [Nat.mul_zero, BitVec.ushiftRight_zero]
    rw [mapFrom_congr (F' := fun i v => v ^^^ (z >>> (8 * i)).setWidth 8) (i' := 0 + 1) l fun j v => by
      show v ^^^ _ = v ^^^ _
      rw [show 8 * (0 + 1 + j) = 8 + 8 * j by omega, BitVec.shiftRight_add, Nat.zero_add]]

theorem loop_four (w : Trivium.W) (R : Ram) (s : Nat) :
    (Trivium.loop w (R.bytes s 4)).1 = write32le (read32le (R.mem s) (R.mem (s + 1)) (R.mem (s + 2)) (R.mem (s + 3)) ^^^ Trivium.out w) := by
  rw [show R.bytes s 4 = R.bytes s (0 + 4) from rfl, bytes_four, bytes_zero, Trivium.loop]
  simp only [Trivium.loop, List.append_nil]

/-- The loop is defined wherever the buffers are; the first byte is right in any case. -/
theorem triviumLoop_first : ∀ (q r : Nat) (R : Ram) (w : Trivium.W) (d s : Nat), r < 4 → R.Owned s (4 * q + r) → R.Owned d (4 * q + r) →
    ∃ R' w', triviumLoop q r R w d s = some (R', w') ∧ R'.own = R.own ∧ (∀ x, Outside x d (4 * q + r) → R'.mem x = R.mem x) ∧
      (0 < 4 * q + r → R'.mem d = R.mem s ^^^ TriviumS.byte (Trivium.abs w) 0)
  | 0, r, R, w, d, s, hr, os, od => by
    rw [Nat.mul_zero, Nat.zero_add] at *
    by_cases h : s < d
    · by_cases h0 : 0 < r
      · obtain ⟨R', e, o, _, f, c⟩ := byteLoop_behind (fun i v => v ^^^ ((Trivium.out w) >>> (8 * i)).setWidth 8) r 0 R d s os od h
        refine ⟨R', Trivium.update w, ?_, o, f, fun _ => ?_⟩
        · rw [triviumLoop, if_pos h0, triviumTail_byteLoop, e]; rfl
        · have hc := c 0 h0
          have hg := trivium_loop_get w (R.bytes s r) 0
          rw [loop_short w R s hr h0, tail_mapFrom, mapFrom_get, bytes_get, if_pos h0, Option.map_some, Option.map_some, Option.some.injEq] at hg
          rw [Nat.add_zero, Nat.add_zero, f s (by unfold Outside; omega)] at hc
          rw [Nat.add_zero] at hg
          rw [hc, hg]
      · have : r = 0 := by omega
        subst this
        exact ⟨R, w, rfl, rfl, fun _ _ => rfl, by omega⟩
    · have e := triviumLoop_ram 0 r R w d s hr (by rw [Nat.mul_zero, Nat.zero_add]; exact os) (by rw [Nat.mul_zero, Nat.zero_add]; exact od) (by omega)
      rw [Nat.mul_zero, Nat.zero_add] at e
      have hl : (Trivium.loop w (R.bytes s r)).1.length = r := by
        rw [(Trivium.loop_eq _ w _ le_rfl).1]; simp [Trivium.stream]
      refine ⟨_, _, e, rfl, fun x hx => put_mem_out (by rw [hl]; exact hx), fun h0 => ?_⟩
      have hg := trivium_loop_get w (R.bytes s r) 0
      rw [bytes_get, if_pos h0, List.getElem?_eq_getElem (by omega), Option.map_some, Option.some.injEq] at hg
      have := put_mem_in (R := R) (a := d) (l := (Trivium.loop w (R.bytes s r)).1) (i := 0) (by omega)
      rw [Nat.add_zero] at this hg
      rw [this, hg]
  | q + 1, r, R, w, d, s, hr, os, od => by
    rw [show 4 * (q + 1) + r = 4 * q + r + 4 by omega] at *
    rw [triviumLoop, read32_eq (by ownof os), Option.bind_some, write32_eq (by ownof od), Option.bind_some]
    have hX := loop_four w R s
    have hl : (write32le (read32le (R.mem s) (R.mem (s + 1)) (R.mem (s + 2)) (R.mem (s + 3)) ^^^ Trivium.out w)).length = 4 := rfl
    generalize write32le (read32le (R.mem s) (R.mem (s + 1)) (R.mem (s + 2)) (R.mem (s + 3)) ^^^ Trivium.out w) = X at *
    obtain ⟨R', w', e, o, f, -⟩ := triviumLoop_first q r (R.put d X) (Trivium.update w) (d + 4) (s + 4) hr (by ownof os) (by ownof od)
    refine ⟨R', w', e, o, fun x hx => ?_, fun _ => ?_⟩
    · unfold Outside at hx
      rw [f x (by unfold Outside; omega), put_mem_out (by rw [hl]; omega)]
    · rw [f d (by unfold Outside; omega)]
      have hg := trivium_loop_get w (R.bytes s 4) 0
      rw [hX, bytes_get, if_pos (by omega), Option.map_some, List.getElem?_eq_getElem (by rw [hl]; omega), Option.some.injEq, Nat.add_zero] at hg
      have := put_mem_in (R := R) (a := d) (l := X) (i := 0) (by rw [hl]; omega)
      rw [Nat.add_zero] at this
      rw [this, hg]

end Verif.Ram
