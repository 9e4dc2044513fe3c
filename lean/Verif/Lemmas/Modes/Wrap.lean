import Verif.Lemmas.Modes.Ctr
import Verif.Model.Modes.Wrap
import Verif.Spec.Wrap
/-! Key wrap: each pass is a bijection undone by the corresponding unwrap pass. -/
namespace Verif.Modes

theorem xor7_length (a : List Byte) (t : Nat) : (xor7 a t).length = a.length := by
  simp [xor7]

theorem xor7_xor7 (a : List Byte) (t : Nat) : xor7 (xor7 a t) t = a := by
  unfold xor7
  apply List.ext_getElem?
  intro i
  rw [List.getElem?_modify, List.getElem?_modify]
  by_cases h : 7 = i
  · subst h
    cases a[7]? with
    | none => rfl
    | some x => simp [BitVec.xor_assoc]
  · simp [h]

/-- One pass over a list of blocks. -/
def passB (E : List Byte → List Byte) (n i : Nat) :
    Nat → List Byte → List (List Byte) → List Byte × List (List Byte)
  | _, a, [] => (a, [])
  | j, a, x :: xs =>
    let b := E (a ++ x)
    let r := passB E n i (j + 1) (xor7 (b.take 8) (n * i + j)) xs
    (r.1, b.drop 8 :: r.2)

theorem passB_length {E : List Byte → List Byte} (n i : Nat) : ∀ (xs : List (List Byte)) (j : Nat) (a : List Byte),
    (passB E n i j a xs).2.length = xs.length
  | [], _, _ => rfl
  | x :: xs, j, a => by rw [passB]; dsimp only; rw [List.length_cons, passB_length n i xs, List.length_cons]

theorem passB_snoc {E : List Byte → List Byte} (n i : Nat) : ∀ (xs : List (List Byte)) (x : List Byte) (j : Nat)
    (a : List Byte), passB E n i j a (xs ++ [x]) =
      (let r := passB E n i j a xs
       let b := E (r.1 ++ x)
       (xor7 (b.take 8) (n * i + (j + xs.length)), r.2 ++ [b.drop 8]))
  | [], x, j, a => by simp [passB]
  | y :: xs, x, j, a => by
    rw [List.cons_append, passB]
    dsimp only
    rw [passB_snoc n i xs x (j + 1), List.length_cons, show j + 1 + xs.length = j + (xs.length + 1) by omega]
    rfl

theorem passB_blocks {E : List Byte → List Byte} (hE : ∀ b, b.length = 16 → (E b).length = 16) (n i : Nat) :
    ∀ (xs : List (List Byte)) (j : Nat) (a : List Byte), Blocks 8 xs → a.length = 8 →
    (passB E n i j a xs).1.length = 8 ∧ Blocks 8 (passB E n i j a xs).2
  | [], _, a, _, ha => ⟨ha, by intro b hb; simp [passB] at hb⟩
  | x :: xs, j, a, h, ha => by
    obtain ⟨h1, h2⟩ := h.cons
    have hl : (E (a ++ x)).length = 16 := hE _ (by rw [List.length_append]; omega)
    obtain ⟨g1, g2⟩ := passB_blocks hE n i xs (j + 1) (xor7 ((E (a ++ x)).take 8) (n * i + j)) h2
      (by rw [xor7_length, List.length_take]; omega)
    exact ⟨g1, Blocks.mk (by rw [List.length_drop]; omega) g2⟩

theorem wrapInner_spec {E : List Byte → List Byte} (n i : Nat) : ∀ (xs : List (List Byte)) (j : Nat)
    (a rest : List Byte), Blocks 8 xs →
    wrapInner E n i xs.length j a (xs.flatten ++ rest) =
      ((passB E n i j a xs).1, (passB E n i j a xs).2.flatten ++ rest)
  | [], _, _, _, _ => rfl
  | x :: xs, j, a, rest, h => by
    obtain ⟨h1, h2⟩ := h.cons
    rw [List.length_cons, wrapInner, List.flatten_cons, List.append_assoc, List.take_left' h1,
      List.drop_left' h1, passB]
    dsimp only
    rw [wrapInner_spec n i xs (j + 1) _ rest h2, List.flatten_cons, List.append_assoc]

/-- The step of the unwrap loop at the last block. -/
theorem unwrapInner_snoc {D : List Byte → List Byte} (n i : Nat) (ys : List (List Byte)) (y : List Byte)
    (a rest : List Byte) (hys : Blocks 8 ys) (hy : y.length = 8)
    (hD : (D (xor7 a (n * i + (ys.length + 1)) ++ y)).length = 16) :
    unwrapInner D n i (ys ++ [y]).length a ((ys ++ [y]).flatten ++ rest) =
      (let b := D (xor7 a (n * i + (ys.length + 1)) ++ y)
       unwrapInner D n i ys.length (b.take 8) (ys.flatten ++ (b.drop 8 ++ rest))) := by
  have hl := hys.length
  have hrd : rd ((ys ++ [y]).flatten ++ rest) (8 * ys.length) 8 = y := by
    rw [List.flatten_append, List.flatten_singleton]
    exact rd_mid (by rw [hl, Nat.mul_comm]) hy
  rw [List.length_append, List.length_singleton, unwrapInner, hrd]
  dsimp only
  congr 1
  rw [List.flatten_append, List.flatten_singleton]
  rw [wr_mid (by rw [hl, Nat.mul_comm]) (by rw [List.length_drop]; omega), List.append_assoc]

theorem unwrap_pass {E D : List Byte → List Byte} (hE : ∀ b, b.length = 16 → (E b).length = 16)
    (hDE : ∀ b, b.length = 16 → D (E b) = b) (n i : Nat) (xs : List (List Byte)) :
    ∀ (a rest : List Byte), Blocks 8 xs → a.length = 8 →
    unwrapInner D n i xs.length (passB E n i 1 a xs).1 ((passB E n i 1 a xs).2.flatten ++ rest) =
      (a, xs.flatten ++ rest) := by
  induction xs using List.reverseRecOn with
  | nil => intro a rest _ _; rfl
  | append_singleton xs x ih =>
    intro a rest hb ha
    have hx : x.length = 8 := hb x (by simp)
    have hxs : Blocks 8 xs := fun b h => hb b (by simp [h])
    obtain ⟨g1, g2⟩ := passB_blocks hE n i xs 1 a hxs ha
    have hl := passB_length (E := E) n i xs 1 a
    rw [passB_snoc]
    dsimp only
    have hb16 : ((passB E n i 1 a xs).1 ++ x).length = 16 := by rw [List.length_append]; omega
    have hel := hE _ hb16
    have hxx : xor7 (xor7 ((E ((passB E n i 1 a xs).1 ++ x)).take 8) (n * i + (1 + xs.length)))
        (n * i + ((passB E n i 1 a xs).2.length + 1)) ++ (E ((passB E n i 1 a xs).1 ++ x)).drop 8 =
        E ((passB E n i 1 a xs).1 ++ x) := by
      rw [hl, Nat.add_comm 1, xor7_xor7, List.take_append_drop]
    have hu := unwrapInner_snoc (D := D) n i (passB E n i 1 a xs).2 ((E ((passB E n i 1 a xs).1 ++ x)).drop 8)
      (xor7 ((E ((passB E n i 1 a xs).1 ++ x)).take 8) (n * i + (1 + xs.length))) rest g2
      (by rw [List.length_drop]; omega) (by rw [hxx, hDE _ hb16]; exact hb16)
    rw [show (xs ++ [x]).length = ((passB E n i 1 a xs).2 ++ [(E ((passB E n i 1 a xs).1 ++ x)).drop 8]).length by
      rw [List.length_append, List.length_append, hl]; rfl, hu]
    dsimp only
    rw [hxx, hDE _ hb16, List.take_left' g1, List.drop_left' g1, hl, ih a _ hxs ha]
    simp

theorem unwrap_surj {E D : List Byte → List Byte} (hD : ∀ b, b.length = 16 → (D b).length = 16)
    (hED : ∀ b, b.length = 16 → E (D b) = b) (n i : Nat) (ys : List (List Byte)) :
    ∀ (a rest : List Byte), Blocks 8 ys → a.length = 8 →
    ∃ a0 xs, a0.length = 8 ∧ Blocks 8 xs ∧ xs.length = ys.length ∧
      unwrapInner D n i ys.length a (ys.flatten ++ rest) = (a0, xs.flatten ++ rest) ∧
      passB E n i 1 a0 xs = (a, ys) := by
  induction ys using List.reverseRecOn with
  | nil => intro a rest hb ha; exact ⟨a, [], ha, hb, rfl, rfl, rfl⟩
  | append_singleton ys y ih =>
    intro a rest hb ha
    have hy : y.length = 8 := hb y (by simp)
    have hys : Blocks 8 ys := fun b h => hb b (by simp [h])
    have h16 : (xor7 a (n * i + (ys.length + 1)) ++ y).length = 16 := by
      rw [List.length_append, xor7_length]; omega
    have hdl := hD _ h16
    generalize hbv : D (xor7 a (n * i + (ys.length + 1)) ++ y) = b at *
    have htl : (b.take 8).length = 8 := by rw [List.length_take]; omega
    have hdr : (b.drop 8).length = 8 := by rw [List.length_drop]; omega
    obtain ⟨a0, xs, h1, h2, h3, h4, h5⟩ := ih (b.take 8) (b.drop 8 ++ rest) hys htl
    refine ⟨a0, xs ++ [b.drop 8], h1, h2.append (Blocks.mk hdr (by intro b hb; simp at hb)), by simp [h3], ?_, ?_⟩
    · rw [unwrapInner_snoc n i ys y a rest hys hy (by rw [hbv]; exact hdl), hbv]
      dsimp only
      rw [h4]; simp
    · rw [passB_snoc, h5]
      dsimp only
      rw [List.take_append_drop, ← hbv, hED _ h16, h3, Nat.add_comm 1,
        List.take_left' (by rw [xor7_length]; exact ha), List.drop_left' (by rw [xor7_length]; exact ha), xor7_xor7]

end Verif.Modes

namespace Verif.Modes

/-- A byte string as its whole 8-byte blocks and the rest. -/
theorem blocks8 (p : List Byte) : ∃ xs rest, Blocks 8 xs ∧ xs.length = p.length / 8 ∧ rest.length < 8 ∧
    p = xs.flatten ++ rest := by
  obtain ⟨xs, h1, h2⟩ := exists_blocks (c := 8) (l := p.take (p.length / 8 * 8))
    (by rw [List.length_take, Nat.min_eq_left (by omega)]; exact Nat.dvd_mul_left _ _)
  refine ⟨xs, p.drop (p.length / 8 * 8), h1, ?_, ?_, ?_⟩
  · have := h1.length
    rw [h2, List.length_take, Nat.min_eq_left (by omega)] at this; omega
  · rw [List.length_drop]; omega
  · rw [h2, List.take_append_drop]

theorem wrap_fwd {E D : List Byte → List Byte} (hE : ∀ b, b.length = 16 → (E b).length = 16)
    (hDE : ∀ b, b.length = 16 → D (E b) = b) (n : Nat) (rest : List Byte) : ∀ (js : List Nat) (a : List Byte)
    (xs : List (List Byte)), Blocks 8 xs → xs.length = n → a.length = 8 →
    ∃ a' ys, a'.length = 8 ∧ Blocks 8 ys ∧ ys.length = n ∧
      js.foldl (fun s i => wrapInner E n i n 1 s.1 s.2) (a, xs.flatten ++ rest) = (a', ys.flatten ++ rest) ∧
      js.reverse.foldl (fun s i => unwrapInner D n i n s.1 s.2) (a', ys.flatten ++ rest) =
        (a, xs.flatten ++ rest)
  | [], a, xs, h1, h2, h3 => ⟨a, xs, h3, h1, h2, rfl, rfl⟩
  | j :: js, a, xs, h1, h2, h3 => by
    obtain ⟨g1, g2⟩ := passB_blocks hE n j xs 1 a h1 h3
    have gl := passB_length (E := E) n j xs 1 a
    obtain ⟨a', ys, k1, k2, k3, k4, k5⟩ := wrap_fwd hE hDE n rest js _ _ g2 (by rw [gl, h2]) g1
    refine ⟨a', ys, k1, k2, k3, ?_, ?_⟩
    · rw [List.foldl_cons, ← k4]
      congr 1
      have := wrapInner_spec (E := E) n j xs 1 a rest h1
      rw [h2] at this
      exact this
    · rw [List.reverse_cons, List.foldl_append, k5, List.foldl_cons, List.foldl_nil]
      have := unwrap_pass hE hDE n j xs a rest h1 h3
      rw [h2] at this
      exact this

theorem wrap_bwd {E D : List Byte → List Byte} (hD : ∀ b, b.length = 16 → (D b).length = 16)
    (hED : ∀ b, b.length = 16 → E (D b) = b) (n : Nat) (rest : List Byte) : ∀ (js : List Nat) (a : List Byte)
    (ys : List (List Byte)), Blocks 8 ys → ys.length = n → a.length = 8 →
    ∃ a' xs, a'.length = 8 ∧ Blocks 8 xs ∧ xs.length = n ∧
      js.reverse.foldl (fun s i => unwrapInner D n i n s.1 s.2) (a, ys.flatten ++ rest) =
        (a', xs.flatten ++ rest) ∧
      js.foldl (fun s i => wrapInner E n i n 1 s.1 s.2) (a', xs.flatten ++ rest) = (a, ys.flatten ++ rest)
  | [], a, xs, h1, h2, h3 => ⟨a, xs, h3, h1, h2, rfl, rfl⟩
  | j :: js, a, ys, h1, h2, h3 => by
    obtain ⟨a1, x1, k1, k2, k3, k4, k5⟩ := wrap_bwd hD hED n rest js a ys h1 h2 h3
    obtain ⟨a0, x0, l1, l2, l3, l4, l5⟩ := unwrap_surj hD hED n j x1 a1 rest k2 k1
    refine ⟨a0, x0, l1, l2, by omega, ?_, ?_⟩
    · rw [List.reverse_cons, List.foldl_append, k4, List.foldl_cons, List.foldl_nil, ← l4, k3]
    · rw [List.foldl_cons, ← k5]
      congr 1
      have := wrapInner_spec (E := E) n j x0 1 a0 rest l2
      rw [l5, l3, k3] at this
      exact this

theorem xor7_encodeBE {a : List Byte} (ha : a.length = 8) {t : Nat} (ht : t < 256) :
    xor7 a t = xorB a (encodeBE 8 t) := by
  have he : encodeBE 8 t = List.replicate 7 0 ++ [BitVec.ofNat 8 t] := by
    have h0 : t / 256 = 0 := by omega
    simp [encodeBE, h0]
  rw [he]
  match a, ha with
  | [a0, a1, a2, a3, a4, a5, a6, a7], _ =>
    simp [xor7, xorB, List.modify, List.modifyTailIdx, List.replicate]
    rfl

theorem passB_rfc {E : List Byte → List Byte} (hE : ∀ b, b.length = 16 → (E b).length = 16) (n i : Nat)
    (hi : i < 6) (hn : 6 * n < 256) :
    ∀ (xs : List (List Byte)) (j : Nat) (a : List Byte), Blocks 8 xs → a.length = 8 → j + xs.length ≤ n + 1 →
    passB E n i j a xs = rfcPass E n i j a xs
  | [], _, a, _, ha, _ => rfl
  | x :: xs, j, a, h, ha, hj => by
    obtain ⟨h1, h2⟩ := h.cons
    rw [List.length_cons] at hj
    have hl : (E (a ++ x)).length = 16 := hE _ (by rw [List.length_append]; omega)
    have htl : ((E (a ++ x)).take 8).length = 8 := by rw [List.length_take]; omega
    have ht : n * i + j < 256 := by
      have : n * i ≤ n * 5 := Nat.mul_le_mul_left _ (by omega)
      omega
    rw [passB, rfcPass, xor7_encodeBE htl ht, passB_rfc hE n i hi hn xs (j + 1) _ h2 (by rw [xorB_length, encodeBE_length]; omega)
      (by omega)]

end Verif.Modes
