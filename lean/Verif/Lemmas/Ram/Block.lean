import Verif.Model.Ram.Block
import Verif.Lemmas.Ram.Core
import Verif.Spec.RamBlock
import Verif.Lemmas.Crypt.Des
/-! AES and DES in memory read a block completely before they write it. -/
namespace Verif.Ram

variable {R : Ram}

theorem load_some {s : Nat} (h : R.own s = true) : load R s = some (R.mem s) := if_pos h
theorem load_none {s : Nat} (h : ¬ R.own s = true) : load R s = none := if_neg h
theorem store_some {d : Nat} (h : R.own d = true) (v : Byte) : store R d v = some (R.put d [v]) := if_pos h
theorem store_none {d : Nat} (h : ¬ R.own d = true) (v : Byte) : store R d v = none := if_neg h

theorem owned_four {s : Nat} : R.Owned s 4 ↔ R.own s = true ∧ R.own (s + 1) = true ∧ R.own (s + 2) = true ∧ R.own (s + 3) = true := by
  constructor
  · intro h; exact ⟨h 0 (by decide), h 1 (by decide), h 2 (by decide), h 3 (by decide)⟩
  · rintro ⟨h0, h1, h2, h3⟩ i hi
    obtain rfl | rfl | rfl | rfl : i = 0 ∨ i = 1 ∨ i = 2 ∨ i = 3 := by omega
    exacts [h0, h1, h2, h3]

theorem owned_sixteen {s : Nat} : R.Owned s 16 ↔ R.Owned s 4 ∧ R.Owned (s + 4) 4 ∧ R.Owned (s + 8) 4 ∧ R.Owned (s + 12) 4 := by
  constructor
  · intro h; exact ⟨owned_sub h (by omega) (by omega), owned_sub h (by omega) (by omega), owned_sub h (by omega) (by omega), owned_sub h (by omega) (by omega)⟩
  · rintro ⟨h0, h1, h2, h3⟩ i hi
    by_cases a : i < 4
    · exact h0 i a
    by_cases b : i < 8
    · have := h1 (i - 4) (by omega); rwa [show s + 4 + (i - 4) = s + i by omega] at this
    by_cases c : i < 12
    · have := h2 (i - 8) (by omega); rwa [show s + 8 + (i - 8) = s + i by omega] at this
    · have := h3 (i - 12) (by omega); rwa [show s + 12 + (i - 12) = s + i by omega] at this

theorem loadWord_eq (s : Nat) : loadWord R s = if R.Owned s 4 then some (read32le (R.mem s) (R.mem (s + 1)) (R.mem (s + 2)) (R.mem (s + 3))) else none := by
  unfold loadWord
  by_cases h : R.Owned s 4
  · rw [if_pos h]
    obtain ⟨h0, h1, h2, h3⟩ := owned_four.1 h
    rw [load_some h3, load_some h2, load_some h1, load_some h0]; rfl
  · rw [if_neg h, owned_four] at *
    by_cases h3 : R.own (s + 3) = true
    · rw [load_some h3, Option.bind_some]
      by_cases h2 : R.own (s + 2) = true
      · rw [load_some h2, Option.bind_some]
        by_cases h1 : R.own (s + 1) = true
        · rw [load_some h1, Option.bind_some, load_none (fun h0 => h ⟨h0, h1, h2, h3⟩)]; rfl
        · rw [load_none h1]; rfl
      · rw [load_none h2]; rfl
    · rw [load_none h3]; rfl

theorem storeWord_eq (d : Nat) (v : BitVec 32) : storeWord R d v = if R.Owned d 4 then some (R.put d (write32le v)) else none := by
  unfold storeWord
  by_cases h : R.Owned d 4
  · rw [if_pos h]
    obtain ⟨h0, h1, h2, h3⟩ := owned_four.1 h
    rw [store_some h3, Option.bind_some, store_some (by exact h2), Option.bind_some, store_some (by exact h1), Option.bind_some, store_some (by exact h0)]
    refine congrArg some (ext rfl rfl fun x => ?_)
    unfold write32le
    simp only [put_get, List.length_cons, List.length_nil]
    by_cases a0 : x = d
    · subst a0; simp
    by_cases a1 : x = d + 1
    · subst a1; simp
    by_cases a2 : x = d + 2
    · subst a2; simp
    by_cases a3 : x = d + 3
    · subst a3; simp
    rw [dif_neg (by omega), dif_neg (by omega), dif_neg (by omega), dif_neg (by omega), dif_neg (by omega)]
  · rw [if_neg h, owned_four] at *
    by_cases h3 : R.own (d + 3) = true
    · rw [store_some h3, Option.bind_some]
      by_cases h2 : R.own (d + 2) = true
      · rw [store_some (by exact h2), Option.bind_some]
        by_cases h1 : R.own (d + 1) = true
        · rw [store_some (by exact h1), Option.bind_some, store_none (by exact fun h0 => h ⟨h0, h1, h2, h3⟩)]
        · rw [store_none (by exact h1)]; rfl
      · rw [store_none (by exact h2)]; rfl
    · rw [store_none h3]; rfl

theorem bytes_getD {a n i : Nat} (h : i < n) : (R.bytes a n).getD i 0 = R.mem (a + i) := by
  rw [List.getD_eq_getElem?_getD, bytes_get, if_pos h]; rfl

theorem aesLoad_eq (c : Aes.Ctx) (s : Nat) : aesLoad c R s = if R.Owned s 16 then
    some ⟨Aes.word (R.bytes s 16) 0 ^^^ c.key 0, Aes.word (R.bytes s 16) 4 ^^^ c.key 1, Aes.word (R.bytes s 16) 8 ^^^ c.key 2, Aes.word (R.bytes s 16) 12 ^^^ c.key 3⟩
    else none := by
  unfold aesLoad
  rw [loadWord_eq, loadWord_eq, loadWord_eq, loadWord_eq]
  by_cases h : R.Owned s 16
  · obtain ⟨h0, h1, h2, h3⟩ := owned_sixteen.1 h
    rw [if_pos h, if_pos h0, if_pos h1, if_pos h2, if_pos h3]
    unfold Aes.word
    rw [bytes_getD (by decide), bytes_getD (by decide), bytes_getD (by decide), bytes_getD (by decide), bytes_getD (by decide), bytes_getD (by decide),
      bytes_getD (by decide), bytes_getD (by decide), bytes_getD (by decide), bytes_getD (by decide), bytes_getD (by decide), bytes_getD (by decide),
      bytes_getD (by decide), bytes_getD (by decide), bytes_getD (by decide), bytes_getD (by decide)]
    rfl
  · rw [if_neg h, owned_sixteen] at *
    split_ifs with h0 h1 h2 h3
    · exact absurd ⟨h0, h1, h2, h3⟩ h
    all_goals rfl

theorem write32le_length (v : BitVec 32) : (write32le v).length = 4 := rfl

theorem aesStore_eq (d : Nat) (t : Aes.W) : aesStore R d t = if R.Owned d 16 then
    some (R.put d (write32le t.w0 ++ write32le t.w1 ++ write32le t.w2 ++ write32le t.w3)) else none := by
  unfold aesStore
  by_cases h : R.Owned d 16
  · obtain ⟨h0, h1, h2, h3⟩ := owned_sixteen.1 h
    rw [if_pos h, storeWord_eq, if_pos h0, Option.bind_some, storeWord_eq, if_pos (by exact h2), Option.bind_some, storeWord_eq, if_pos (by exact h1), Option.bind_some, storeWord_eq,
      if_pos (by exact h3), put_append, put_append, put_append]
    simp only [List.length_append, write32le_length]
    rw [put_comm (R := R.put d (write32le t.w0)) (a := d + 8) (b := d + 4) (by simp only [write32le_length]; apt)]
  · rw [if_neg h, owned_sixteen] at *
    rw [storeWord_eq]
    split_ifs with h0
    · rw [Option.bind_some, storeWord_eq]
      split_ifs with h2
      · rw [Option.bind_some, storeWord_eq]
        split_ifs with h1
        · rw [Option.bind_some, storeWord_eq, if_neg]
          exact fun h3 => h ⟨h0, h1, h2, h3⟩
        · rfl
      · rfl
    · rfl

/-- A turn reads its block and then writes it. -/
def Turns (turn : Ram → Nat → Nat → Option Ram) (F : List Byte → List Byte) (c : Nat) : Prop :=
  ∀ R d s, turn R d s = if R.Owned s c ∧ R.Owned d c then some (R.put d (F (R.bytes s c))) else none

theorem aesEncTurn_eq (c : Aes.Ctx) : Turns (aesEncTurn c) (Aes.encBlock c) 16 := by
  intro R d s
  unfold aesEncTurn
  rw [aesLoad_eq]
  by_cases h1 : R.Owned s 16
  · rw [if_pos h1, Option.bind_some, aesStore_eq]
    by_cases h2 : R.Owned d 16
    · rw [if_pos h2, if_pos ⟨h1, h2⟩]; rfl
    · rw [if_neg h2, if_neg (fun h => h2 h.2)]
  · rw [if_neg h1, if_neg (fun h => h1 h.1)]; rfl

theorem aesDecTurn_eq (c : Aes.Ctx) : Turns (aesDecTurn c) (Aes.decBlock c) 16 := by
  intro R d s
  unfold aesDecTurn
  rw [aesLoad_eq]
  by_cases h1 : R.Owned s 16
  · rw [if_pos h1, Option.bind_some, aesStore_eq]
    by_cases h2 : R.Owned d 16
    · rw [if_pos h2, if_pos ⟨h1, h2⟩]; rfl
    · rw [if_neg h2, if_neg (fun h => h2 h.2)]
  · rw [if_neg h1, if_neg (fun h => h1 h.1)]; rfl

theorem aesLoop_eq {turn : Ram → Nat → Nat → Option Ram} {F : List Byte → List Byte} (ht : Turns turn F 16) :
    ∀ (k n : Nat) (R : Ram) (d s : Nat), n / 16 = k → aesLoop turn R d s n = cipher F 16 k R d s
  | 0, n, R, d, s, h => by rw [aesLoop, if_neg (by omega), cipher]
  | k + 1, n, R, d, s, h => by
    rw [aesLoop, if_pos (by omega), cipher, ht]
    split_ifs
    · rw [Option.bind_some, aesLoop_eq ht k _ _ _ _ (by omega)]
    · rfl

/-! ### DES -/

theorem foldlM_some {α β : Type} {f : β → α → Option β} {g : β → α → β} : ∀ (l : List α) (b : β), (∀ b, ∀ i ∈ l, f b i = some (g b i)) →
    l.foldlM f b = some (l.foldl g b)
  | [], _, _ => rfl
  | a :: l, b, h => by
    rw [List.foldlM_cons, h b a (by simp), List.foldl_cons]
    exact foldlM_some l _ fun b i hi => h b i (by simp [hi])

theorem foldlM_none {α β : Type} {f : β → α → Option β} {i : α} (h : ∀ b, f b i = none) : ∀ (l : List α) (b : β), i ∈ l → l.foldlM f b = none
  | a :: l, b, hi => by
    rw [List.foldlM_cons]
    rcases List.mem_cons.1 hi with rfl | hi
    · rw [h]; rfl
    · cases f b a with
      | none => rfl
      | some b' => exact foldlM_none h l b' hi

theorem ipTab_byte : ∀ i < 64, (Des.ipTab.getD i 0 - 1) / 8 < 8 := by decide
theorem ipTab_all : ∀ j < 8, ∃ i < 64, (Des.ipTab.getD i 0 - 1) / 8 = j := by decide

theorem desRead_eq (s : Nat) : desRead R s = if R.Owned s 8 then some (Des.permute (R.bytes s 8) Des.ipTab 8) else none := by
  unfold desRead
  by_cases h : R.Owned s 8
  · rw [if_pos h]
    refine foldlM_some _ _ fun b i hi => ?_
    have hb := ipTab_byte i (List.mem_range.1 hi)
    rw [load_some (h _ hb)]
    unfold Des.getBit
    rw [bytes_getD hb]; rfl
  · rw [if_neg h]
    unfold Ram.Owned at h
    push Not at h
    obtain ⟨j, hj, hn⟩ := h
    obtain ⟨i, hi, e⟩ := ipTab_all j hj
    refine foldlM_none (i := i) (fun b => ?_) _ _ (List.mem_range.2 hi)
    rw [e, load_none hn]; rfl

theorem put_set {d i : Nat} {l : List Byte} (h : i < l.length) (v : Byte) : (R.put d l).put (d + i) [v] = R.put d (l.set i v) := by
  refine ext rfl rfl fun x => ?_
  simp only [put_get, List.length_set, List.length_cons, List.length_nil]
  by_cases hx : x = d + i
  · subst hx
    rw [dif_pos (by omega), dif_pos (by omega)]
    simp
  · rw [dif_neg (by omega)]
    split_ifs with c
    · rw [List.getElem_set_ne (by omega)]
    · rfl

theorem desWrite_fold (d : Nat) (blk : List Byte) (ho : R.Owned d 8) : ∀ (is : List Nat) (l : List Byte), (∀ i ∈ is, i < 64) → l.length = 8 →
    is.foldlM (fun R i => if Des.getBit blk (Des.fpTab.getD i 0 - 1) then
      (load R (d + i / 8)).bind fun b => store R (d + i / 8) (b ||| (0x80#8 >>> (i % 8))) else some R) (R.put d l) =
    some (R.put d (is.foldl (fun dst i => if Des.getBit blk (Des.fpTab.getD i 0 - 1) then Des.setBit dst i else dst) l))
  | [], _, _, _ => rfl
  | i :: is, l, hi, hl => by
    have h64 := hi i (by simp)
    have o : R.own (d + i / 8) = true := ho _ (by omega)
    rw [List.foldlM_cons, List.foldl_cons]
    split_ifs with c
    · rw [load_some (by exact o), Option.bind_some, store_some (by exact o), put_set (by omega), put_mem_in (by omega)]
      refine (desWrite_fold d blk ho is _ (fun j hj => hi j (by simp [hj])) (by simp [hl])).trans ?_
      unfold Des.setBit
      rw [List.getD_eq_getElem?_getD, List.getElem?_eq_getElem (by omega)]; rfl
    · exact desWrite_fold d blk ho is l (fun j hj => hi j (by simp [hj])) hl

theorem desWrite_eq (d : Nat) (blk : List Byte) : desWrite R d blk = if R.Owned d 8 then some (R.put d (Des.permute blk Des.fpTab 8)) else none := by
  unfold desWrite
  split_ifs with h
  · exact desWrite_fold d blk h _ _ (fun i hi => List.mem_range.1 hi) (by simp)
  · rfl

theorem desOperate_eq (key : List Byte) (e : Bool) : Turns (fun R d s => desOperate R d s key e) (fun b => Des.blockOperate b key e) 8 := by
  intro R d s
  show desOperate R d s key e = _
  unfold desOperate
  rw [desRead_eq]
  by_cases h1 : R.Owned s 8
  · rw [if_pos h1, Option.bind_some, desWrite_eq]
    by_cases h2 : R.Owned d 8
    · rw [if_pos h2, if_pos ⟨h1, h2⟩]; rfl
    · rw [if_neg h2, if_neg (fun h => h2 h.2)]
  · rw [if_neg h1, if_neg (fun h => h1 h.1)]; rfl

theorem desThree (k1 k2 k3 : List Byte) (e1 e2 e3 : Bool) : Turns (fun R d s => (desOperate R d s k1 e1).bind fun R => (desOperate R d d k2 e2).bind fun R => desOperate R d d k3 e3)
    (fun b => Des.blockOperate (Des.blockOperate (Des.blockOperate b k1 e1) k2 e2) k3 e3) 8 := by
  intro R d s
  have o := fun k e R d s => desOperate_eq k e R d s
  simp only at o ⊢
  rw [o]
  by_cases h : R.Owned s 8 ∧ R.Owned d 8
  · have l1 : ∀ b k e, (Des.blockOperate b k e).length = 8 := fun b k e => Des.permute_length _ _ _
    rw [if_pos h, if_pos h, Option.bind_some, o, if_pos ⟨h.2, h.2⟩, Option.bind_some, o, if_pos ⟨h.2, h.2⟩, bytes_put_same (l1 _ _ _), bytes_put_same (l1 _ _ _),
      put_put_same (by rw [l1, l1]), put_put_same (by rw [l1, l1])]
  · rw [if_neg h, if_neg h]; rfl

theorem desEncTurn_eq (c : Des.Ctx) : Turns (desEncTurn c) (Des.encBlock c) 8 := by
  intro R d s
  unfold desEncTurn Des.encBlock
  by_cases h : c.keylen = 24
  · simp only [if_pos h]
    exact desThree _ _ _ _ _ _ R d s
  · simp only [if_neg h]
    rw [show desOperate R d s (c.key.take 8) true = _ from desOperate_eq _ _ R d s]
    split_ifs <;> rfl

theorem desDecTurn_eq (c : Des.Ctx) : Turns (desDecTurn c) (Des.decBlock c) 8 := by
  intro R d s
  unfold desDecTurn Des.decBlock
  by_cases h : c.keylen = 24
  · simp only [if_pos h]
    exact desThree _ _ _ _ _ _ R d s
  · simp only [if_neg h]
    exact desOperate_eq _ _ R d s

/-- The outcome of the loop for whole blocks. -/
theorem desLoop_eq {turn : Ram → Nat → Nat → Option Ram} {F : List Byte → List Byte} (ht : Turns turn F 8) :
    ∀ (k f : Nat) (R : Ram) (d s : Nat), k ≤ f → 8 * k < 2 ^ 64 → desLoop turn f R d s (8 * k) = match cipher F 8 k R d s with | none => .ub | some R => .done R
  | 0, f, R, d, s, _, _ => by cases f <;> rfl
  | k + 1, f + 1, R, d, s, hf, hk => by
    rw [show 8 * (k + 1) = 8 * k + 7 + 1 by ring, desLoop, cipher, ht]
    split_ifs
    · show desLoop turn f _ _ _ _ = _
      rw [show (8 * k + 7 + 1 + 2 ^ 64 - 8) % 2 ^ 64 = 8 * k by omega]
      exact desLoop_eq ht k f _ _ _ (by omega) (by omega)
    · rfl

/-- With a size that is not a multiple of 8 the loop does not end. -/
theorem desLoop_odd {turn : Ram → Nat → Nat → Option Ram} : ∀ (f n : Nat) (R R' : Ram) (d s : Nat), n % 8 ≠ 0 → desLoop turn f R d s n ≠ .done R'
  | _, 0, _, _, _, _, h => absurd rfl h
  | 0, n + 1, _, _, _, _, _ => by rw [desLoop]; intro h; cases h
  | f + 1, n + 1, R, R', d, s, h => by
    rw [desLoop]
    cases turn R d s with
    | none => intro h; cases h
    | some R1 => exact desLoop_odd f _ R1 R' _ _ (by omega)

/-- It leaves the memory. -/
theorem desLoop_ub {turn : Ram → Nat → Nat → Option Ram} {F : List Byte → List Byte} (ht : Turns turn F 8) (top : Nat) (f : Nat) :
    ∀ (n : Nat) (R : Ram) (d s : Nat), n % 8 ≠ 0 → (∀ x, top ≤ x → R.own x = false) → top ≤ d + 8 * f → desLoop turn (f + 1) R d s n = .ub := by
  induction f with
  | zero =>
    intro n R d s h ho hd
    obtain ⟨n, rfl⟩ : ∃ m, n = m + 1 := ⟨n - 1, by omega⟩
    rw [desLoop, ht, if_neg]
    exact fun c => absurd (c.2 0 (by decide)) (by rw [ho _ (by omega)]; decide)
  | succ f ih =>
    intro n R d s h ho hd
    obtain ⟨n, rfl⟩ : ∃ m, n = m + 1 := ⟨n - 1, by omega⟩
    rw [desLoop, ht]
    split_ifs with c
    · exact ih _ _ _ _ (by omega) ho (by omega)
    · rfl

/-! ### What the blocks are -/

/-- A run of blocks: where each came from. -/
theorem cipher_run {F : List Byte → List Byte} {c : Nat} (hF : ∀ b, b.length = c → (F b).length = c) : ∀ (k : Nat) (R : Ram) (d s : Nat), R.Owned s (c * k) → R.Owned d (c * k) →
    ∃ R', cipher F c k R d s = some R' ∧ R'.own = R.own ∧ R'.tmp = R.tmp ∧ (∀ x, Outside x d (c * k) → R'.mem x = R.mem x) ∧
      ∀ i < k, ∃ Ri : Ram, (∀ x, x < d → Ri.mem x = R.mem x) ∧ (∀ x, d + c * k ≤ x → Ri.mem x = R.mem x) ∧ (i = 0 → Ri = R) ∧ R'.bytes (d + c * i) c = F (Ri.bytes (s + c * i) c)
  | 0, R, d, s, _, _ => ⟨R, rfl, rfl, rfl, fun _ _ => rfl, fun i hi => by omega⟩
  | k + 1, R, d, s, hs, hd => by
    have hn : c * (k + 1) = c + c * k := by ring
    rw [hn] at hs hd ⊢
    have lb : (F (R.bytes s c)).length = c := hF _ (by simp)
    obtain ⟨R', e, ho, htm, hx, hb⟩ := cipher_run hF k (R.put d (F (R.bytes s c))) (d + c) (s + c) (owned_sub hs (by omega) (by omega)) (owned_sub hd (by omega) (by omega))
    refine ⟨R', by rw [cipher, if_pos ⟨owned_sub hs (by omega) (by omega), owned_sub hd (by omega) (by omega)⟩, e], ho, htm, fun x hx' => ?_, fun i hi => ?_⟩
    · unfold Outside at hx' hx
      rw [hx x (by omega), put_mem_out (by omega)]
    · cases i with
      | zero =>
        refine ⟨R, fun _ _ => rfl, fun _ _ => rfl, fun _ => rfl, ?_⟩
        simp only [Nat.mul_zero, Nat.add_zero]
        rw [← bytes_put_same (R := R) (a := d) lb]
        unfold Outside at hx
        exact bytes_ext fun j hj => hx _ (by omega)
      | succ i =>
        obtain ⟨Ri, h1, h2, -, h3⟩ := hb i (by omega)
        refine ⟨Ri, fun x hx => ?_, fun x hx => ?_, fun h => by omega, ?_⟩
        · rw [h1 x (by omega), put_mem_out (by omega)]
        · rw [h2 x (by omega), put_mem_out (by omega)]
        · rw [show d + c * (i + 1) = d + c + c * i by ring, show s + c * (i + 1) = s + c + c * i by ring]
          exact h3

/-- A destination that does not start inside the source, or a single block. -/
theorem cipher_blocks {F : List Byte → List Byte} {c : Nat} (hF : ∀ b, b.length = c → (F b).length = c) : ∀ (k : Nat) (R : Ram) (d s : Nat), R.Owned s (c * k) → R.Owned d (c * k) →
    (d ≤ s ∨ s + c * k ≤ d ∨ k ≤ 1) → ∃ R', cipher F c k R d s = some R' ∧ Blocks (fun b b' => b' = F b) c k R R' d s
  | 0, R, d, s, _, _, _ => ⟨R, rfl, rfl, rfl, fun i hi => by omega, fun _ _ => rfl⟩
  | k + 1, R, d, s, hs, hd, hp => by
    have hn : c * (k + 1) = c + c * k := by ring
    rw [hn] at hs hd hp
    have lb : (F (R.bytes s c)).length = c := hF _ (by simp)
    have hp' : d ≤ s ∨ s + (c + c * k) ≤ d ∨ k = 0 := by omega
    obtain ⟨R', e, h⟩ := cipher_blocks hF k (R.put d (F (R.bytes s c))) (d + c) (s + c) (owned_sub hs (by omega) (by omega)) (owned_sub hd (by omega) (by omega)) (by omega)
    refine ⟨R', by rw [cipher, if_pos ⟨owned_sub hs (by omega) (by omega), owned_sub hd (by omega) (by omega)⟩, e], h.own, h.tmp, fun i hi => ?_, fun x hx => ?_⟩
    · have hx := h.else_
      unfold Outside at hx
      cases i with
      | zero =>
        simp only [Nat.mul_zero, Nat.add_zero]
        rw [← bytes_put_same (R := R) (a := d) lb]
        exact bytes_ext fun j hj => hx _ (by omega)
      | succ i =>
        have := h.block i (by omega)
        rw [show d + c * (i + 1) = d + c + c * i by ring, show s + c * (i + 1) = s + c + c * i by ring, this]
        have hi' : c * i + c ≤ c * k := by
          have : c * (i + 1) ≤ c * k := Nat.mul_le_mul_left c (by omega)
          rwa [Nat.mul_add, Nat.mul_one] at this
        rw [bytes_put_apart (by rw [lb]; unfold Apart; omega)]
    · unfold Outside at hx
      rw [hn] at hx
      rw [h.else_ x (by unfold Outside; omega), put_mem_out (by omega)]

/-- A destination that starts inside the source: the first block written destroys a later one before it is read. -/
theorem cipher_overlap {F : List Byte → List Byte} {c : Nat} (hc : 0 < c) (hF : ∀ b, b.length = c → (F b).length = c)
    (inj : ∀ a b, a.length = c → b.length = c → F a = F b → a = b) {k d s : Nat} (hk : 2 ≤ k) (h1 : s < d) (h2 : d < s + c * k) :
    ∃ R R', (∀ a, R.own a = true) ∧ cipher F c k R d s = some R' ∧ ∃ i < k, R'.bytes (d + c * i) c ≠ F (R.bytes (s + c * i) c) := by
  obtain ⟨k, rfl⟩ : ∃ m, k = m + 1 := ⟨k - 1, by omega⟩
  -- the block hit and the byte of it
  obtain ⟨j, pos, j1, jk, p1, p2, p3, p4⟩ : ∃ j pos, 1 ≤ j ∧ j < k + 1 ∧ d ≤ pos ∧ pos < d + c ∧ s + c * j ≤ pos ∧ pos < s + c * j + c := by
    by_cases h : d < s + c
    · exact ⟨1, s + c, by omega, by omega, by omega, by omega, by omega, by omega⟩
    · have e := Nat.div_add_mod (d - s) c
      have l := Nat.mod_lt (d - s) hc
      have g : (d - s) / c < k + 1 := by
        rw [Nat.div_lt_iff_lt_mul hc]
        rw [Nat.mul_comm] at h2; omega
      have g1 : 1 ≤ (d - s) / c := by
        rw [Nat.le_div_iff_mul_le hc]; omega
      exact ⟨(d - s) / c, s + c * ((d - s) / c) + (c - 1), g1, g, by omega, by omega, by omega, by omega⟩
  obtain ⟨j, rfl⟩ : ∃ m, j = m + 1 := ⟨j - 1, by omega⟩
  have hj : c * (j + 1) = c + c * j := by ring
  rw [hj] at p3 p4
  let v : Byte := (F (List.replicate c 0)).getD (pos - d) 0
  let R : Ram := ⟨fun _ => true, fun x => if x = pos then v + 1 else 0, []⟩
  have b0 : R.bytes s c = List.replicate c 0 := by
    refine List.ext_getElem? fun i => ?_
    rw [bytes_get, List.getElem?_replicate]
    split_ifs with hi
    · show some (if s + i = pos then v + 1 else 0) = _
      rw [if_neg (by omega)]
    · rfl
  have lb : (F (R.bytes s c)).length = c := hF _ (by simp)
  obtain ⟨R', e, -, -, -, hb⟩ := cipher_run hF k (R.put d (F (R.bytes s c))) (d + c) (s + c) (fun _ _ => rfl) (fun _ _ => rfl)
  obtain ⟨Rj, q1, -, -, q2⟩ := hb j (by omega)
  refine ⟨R, R', fun _ => rfl, by rw [cipher, if_pos ⟨fun _ _ => rfl, fun _ _ => rfl⟩, e], j + 1, jk, ?_⟩
  rw [show d + c * (j + 1) = d + c + c * j by ring, show s + c * (j + 1) = s + c + c * j by ring, q2]
  intro he
  have := inj _ _ (by simp) (by simp) he
  have := congrArg (fun l => l[pos - (s + c + c * j)]?) this
  simp only [bytes_get] at this
  rw [if_pos (by omega), if_pos (by omega), show s + c + c * j + (pos - (s + c + c * j)) = pos by omega, Option.some.injEq, q1 pos p2] at this
  have hv : (R.put d (F (R.bytes s c))).mem pos = v := by
    have := put_mem_in (R := R) (a := d) (l := F (R.bytes s c)) (i := pos - d) (by omega)
    rw [show d + (pos - d) = pos by omega] at this
    rw [this]
    show _ = (F (List.replicate c 0)).getD (pos - d) 0
    rw [List.getD_eq_getElem?_getD, ← b0, List.getElem?_eq_getElem (by omega)]; rfl
  rw [hv] at this
  have hr : R.mem pos = v + 1 := if_pos rfl
  rw [hr] at this
  have h0 := congrArg (· - v) this
  simp only [BitVec.sub_self] at h0
  rw [BitVec.add_comm, BitVec.add_sub_cancel] at h0
  exact absurd h0 (by decide)

end Verif.Ram
