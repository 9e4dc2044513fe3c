import Verif.Lemmas.Modes.Wrap
/-!
# C31: AES key wrap

Stated for any 16-byte block cipher `E` with inverse `D`; `Props/Crypt/Aes.lean` instantiates it with the
library's AES.
-/
namespace Verif.Modes

variable {E D : List Byte → List Byte}

/-- C31: unwrapping a wrapped payload of one block or more (any length from 8 bytes on) returns success and
the payload. -/
theorem unwrap_wrap (hE : ∀ b, b.length = 16 → (E b).length = 16)
    (hDE : ∀ b, b.length = 16 → D (E b) = b) (p : List Byte) (hp : 8 ≤ p.length) :
    (aesWrap E p).length = p.length + 8 ∧ aesUnwrap D (aesWrap E p) = some (0, p) := by
  obtain ⟨xs, rest, h1, h2, -, h3⟩ := blocks8 p
  obtain ⟨a', ys, k1, k2, k3, k4, k5⟩ := wrap_fwd hE hDE (p.length / 8) rest [0, 1, 2, 3, 4, 5]
    (List.replicate 8 0xA6) xs h1 h2 (by simp)
  have hlen : (ys.flatten ++ rest).length = p.length := by
    have hp' := congrArg List.length h3
    rw [List.length_append, h1.length] at hp'
    rw [List.length_append, k2.length, k3, ← h2, hp']
  have hw : aesWrap E p = a' ++ (ys.flatten ++ rest) := by
    unfold aesWrap
    dsimp only
    have k4' := k4
    rw [← h3] at k4'
    rw [k4']
  have hl : (a' ++ (ys.flatten ++ rest)).length = p.length + 8 := by rw [List.length_append, hlen]; omega
  rw [hw]
  refine ⟨hl, ?_⟩
  unfold aesUnwrap
  rw [hl, if_neg (by omega)]
  dsimp only
  rw [Nat.add_sub_cancel, if_neg (by omega), List.take_left' k1, List.drop_left' k1]
  rw [show ([0, 1, 2, 3, 4, 5] : List Nat).reverse = [5, 4, 3, 2, 1, 0] from rfl] at k5
  rw [k5, if_pos rfl, ← h3]

/-- C31: for an input of `n + 8` bytes with at least one block, unwrapping succeeds with output `p` exactly
when the input is the wrapping of `p`; in every other case the result is -1 and all `n` output bytes are
zero. -/
theorem unwrap_accepts_iff (hE : ∀ b, b.length = 16 → (E b).length = 16)
    (hD : ∀ b, b.length = 16 → (D b).length = 16) (hDE : ∀ b, b.length = 16 → D (E b) = b)
    (hED : ∀ b, b.length = 16 → E (D b) = b) (c : List Byte) (hc : 16 ≤ c.length) :
    (∃ p, p.length = c.length - 8 ∧ c = aesWrap E p ∧ aesUnwrap D c = some (0, p)) ∨
    ((∀ p, 8 ≤ p.length → c ≠ aesWrap E p) ∧ aesUnwrap D c = some (-1, List.replicate (c.length - 8) 0)) := by
  obtain ⟨ys, rest, h1, h2, -, h3⟩ := blocks8 (c.drop 8)
  have hdl : (c.drop 8).length = c.length - 8 := by rw [List.length_drop]
  have htl : (c.take 8).length = 8 := by rw [List.length_take]; omega
  rw [hdl] at h2
  obtain ⟨a', xs, k1, k2, k3, k4, k5⟩ := wrap_bwd hD hED ((c.length - 8) / 8) rest [0, 1, 2, 3, 4, 5]
    (c.take 8) ys h1 h2 htl
  rw [← h3] at k4 k5
  rw [show ([0, 1, 2, 3, 4, 5] : List Nat).reverse = [5, 4, 3, 2, 1, 0] from rfl] at k4
  have hlen : (xs.flatten ++ rest).length = c.length - 8 := by
    rw [← hdl, h3, List.length_append, List.length_append, k2.length, h1.length, k3, h2]
  have hu : aesUnwrap D c = if a' = List.replicate 8 0xA6 then some (0, xs.flatten ++ rest)
      else some (-1, List.replicate (c.length - 8) 0) := by
    unfold aesUnwrap
    rw [if_neg (by omega)]
    dsimp only
    rw [if_neg (by omega), k4]
  by_cases ha : a' = List.replicate 8 0xA6
  · left
    refine ⟨xs.flatten ++ rest, hlen, ?_, by rw [hu, if_pos ha]⟩
    unfold aesWrap
    dsimp only
    rw [hlen, ← ha, k5]
    exact (List.take_append_drop 8 c).symm
  · right
    refine ⟨?_, by rw [hu, if_neg ha]⟩
    intro p hp hcp
    have := (unwrap_wrap hE hDE p hp).2
    rw [← hcp, hu, if_neg ha] at this
    simp at this

/-- Without a whole block the integrity check reads uninitialised memory. -/
theorem unwrap_short_ub (c : List Byte) (h : c.length < 16) : aesUnwrap D c = none := by
  unfold aesUnwrap
  by_cases h8 : c.length < 8
  · rw [if_pos h8]
  · rw [if_neg h8]
    dsimp only
    rw [if_pos (by omega)]

/-- C31: for up to 42 blocks the result is the key wrap of RFC 3394. -/
theorem wrap_standard (hE : ∀ b, b.length = 16 → (E b).length = 16) (p : List (List Byte)) (hp : Blocks 8 p)
    (hn : p.length ≤ 42) : aesWrap E p.flatten = (rfcWrap E p).flatten := by
  have key : ∀ (js : List Nat) (a : List Byte) (xs : List (List Byte)), (∀ j ∈ js, j < 6) → Blocks 8 xs →
      xs.length = p.length → a.length = 8 →
      js.foldl (fun s i => wrapInner E p.length i p.length 1 s.1 s.2) (a, xs.flatten) =
      ((js.foldl (fun s j => rfcPass E p.length j 1 s.1 s.2) (a, xs)).1,
       (js.foldl (fun s j => rfcPass E p.length j 1 s.1 s.2) (a, xs)).2.flatten) := by
    intro js
    induction js with
    | nil => intro a xs _ _ _ _; rfl
    | cons j js ih =>
      intro a xs hj hb hl ha
      have h1 := wrapInner_spec (E := E) p.length j xs 1 a [] hb
      rw [List.append_nil, List.append_nil, hl] at h1
      obtain ⟨g1, g2⟩ := passB_blocks hE p.length j xs 1 a hb ha
      have gl := passB_length (E := E) p.length j xs 1 a
      have hr := passB_rfc hE p.length j (hj j (by simp)) (by omega) xs 1 a hb ha (by omega)
      rw [List.foldl_cons, List.foldl_cons]
      dsimp only
      rw [h1, ih _ _ (fun j hj' => hj j (by simp [hj'])) g2 (by omega) g1, hr]
  have hlen : p.flatten.length / 8 = p.length := by rw [hp.length]; omega
  unfold aesWrap rfcWrap
  dsimp only
  rw [hlen]
  have h := key [0, 1, 2, 3, 4, 5] (List.replicate 8 0xA6) p (by simp) hp rfl (by simp)
  rw [h]
  rfl

-- a toy cipher and its inverse; one block, three blocks, three blocks and two bytes
def wrapToyE (b : List Byte) : List Byte := (b.map (· * 3 + 0x91)).reverse
def wrapToyD (b : List Byte) : List Byte := (b.map (fun x => (x - 0x91) * 171)).reverse
theorem wrapToy_DE (b : List Byte) : wrapToyD (wrapToyE b) = b := by
  have h : ∀ x : Byte, (x * 3 + 0x91 - 0x91) * 171 = x := by decide +kernel
  simp only [wrapToyD, wrapToyE, List.map_reverse, List.reverse_reverse, List.map_map]
  conv_rhs => rw [← List.map_id b]
  exact List.map_congr_left (fun x _ => h x)
theorem wrapToy_ED (b : List Byte) : wrapToyE (wrapToyD b) = b := by
  have h : ∀ x : Byte, (x - 0x91) * 171 * 3 + 0x91 = x := by decide +kernel
  simp only [wrapToyD, wrapToyE, List.map_reverse, List.reverse_reverse, List.map_map]
  conv_rhs => rw [← List.map_id b]
  exact List.map_congr_left (fun x _ => h x)
example : aesUnwrap wrapToyD (aesWrap wrapToyE [1, 2, 3, 4, 5, 6, 7, 8]) = some (0, [1, 2, 3, 4, 5, 6, 7, 8]) := by
  decide +kernel
example : aesUnwrap wrapToyD ((aesWrap wrapToyE [1, 2, 3, 4, 5, 6, 7, 8]).modify 3 (· + 1)) =
    some (-1, List.replicate 8 0) := by decide +kernel
example : aesWrap wrapToyE (List.replicate 24 7) = (rfcWrap wrapToyE (List.replicate 3 (List.replicate 8 7))).flatten := by
  decide +kernel

/-- From 43 blocks on only the low byte of the counter is used, so the result is not the standard one. -/
theorem wrap_nonstandard : ∃ E D : List Byte → List Byte, (∀ b, b.length = 16 → (E b).length = 16) ∧
    (∀ b, D (E b) = b) ∧ (∀ b, E (D b) = b) ∧ ∃ p, Blocks 8 p ∧ p.length = 43 ∧
    aesWrap E p.flatten ≠ (rfcWrap E p).flatten :=
  ⟨wrapToyE, wrapToyD, by intro b h; simpa [wrapToyE] using h, wrapToy_DE, wrapToy_ED, List.replicate 43 (List.replicate 8 0),
    by intro b hb; rw [List.eq_of_mem_replicate hb]; rfl, by simp, by decide +kernel⟩

end Verif.Modes
