import Verif.Lemmas.Modes.Mac
/-!
# C29 (CMAC) and C30 (HMAC)
-/
namespace Verif.Modes

/-- C29: for every 16-byte block cipher, every message and every sequence of updates, the tag is the CMAC
of RFC 4493 of the whole message. -/
theorem cmac_correct {E : List Byte → List Byte} (hE : ∀ b, b.length = 16 → (E b).length = 16)
    (chunks : List (List Byte)) :
    cmacDigest E (chunks.foldl (cmacUpdate E) cmacInit) = cmacS E chunks.flatten := by
  have key : ∀ (cs : List (List Byte)) (c : Cmac) (m : List Byte), CmacInv E c m →
      CmacInv E (cs.foldl (cmacUpdate E) c) (m ++ cs.flatten) := by
    intro cs
    induction cs with
    | nil => intro c m h; simpa using h
    | cons d cs ih =>
      intro c m h
      have := ih _ _ (cmacUpdate_inv h d)
      rwa [List.append_assoc, ← List.flatten_cons] at this
  have := key chunks cmacInit [] cmacInit_inv
  rw [List.nil_append] at this
  exact cmacDigest_spec hE this

-- a toy cipher, 20 bytes in three updates and the empty message
def toyM (b : List Byte) : List Byte := (b.map (· * 3 + 0x91)).reverse
example : ∀ b : List Byte, b.length = 16 → (toyM b).length = 16 := by intro b h; simpa [toyM] using h
example : cmacDigest toyM ([[1, 2], List.replicate 14 3, [4, 5, 6, 7]].foldl (cmacUpdate toyM) cmacInit) =
    cmacDigest toyM (cmacUpdate toyM cmacInit ([1, 2] ++ List.replicate 14 3 ++ [4, 5, 6, 7])) := by
  decide +kernel
example : cmacDigest toyM cmacInit ≠ cmacDigest toyM (cmacUpdate toyM cmacInit [0]) := by decide +kernel
-- subkeys of RFC 4493, section 4
example : subkey [0x7d, 0xf7, 0x6b, 0x0c, 0x1a, 0xb8, 0x99, 0xb3, 0x3e, 0x42, 0xf0, 0x47, 0xb9, 0x1b, 0x54, 0x6f] =
    [0xfb, 0xee, 0xd6, 0x18, 0x35, 0x71, 0x33, 0x66, 0x7c, 0x85, 0xe0, 0x8f, 0x72, 0x36, 0xa8, 0xde] := by
  decide +kernel
example : cmacSub [0xfb, 0xee, 0xd6, 0x18, 0x35, 0x71, 0x33, 0x66, 0x7c, 0x85, 0xe0, 0x8f, 0x72, 0x36, 0xa8, 0xde] =
    [0xf7, 0xdd, 0xac, 0x30, 0x6a, 0xe2, 0x66, 0xcc, 0xf9, 0x0b, 0xc1, 0x1e, 0xe4, 0x6d, 0x51, 0x3b] := by
  decide +kernel

/-- C30: for every streaming hash implementation `h` of a function `H` (for messages up to `N` bytes), every
key and every sequence of updates, the tag is the HMAC of RFC 2104 with 64-byte blocks. -/
theorem hmac_correct {σ : Type} {h : HashItf σ} {H : List Byte → List Byte} {N : Nat}
    {Rep : σ → List Byte → Prop} (hs : Streams h H N Rep) (hashLen : Nat)
    (hH : ∀ m, (H m).length = hashLen) (hl : hashLen ≤ 64) (key : List Byte) (chunks : List (List Byte))
    (hk : key.length ≤ N) (hm : 64 + chunks.flatten.length ≤ N) (hN : 64 + hashLen ≤ N) :
    ∃ c, hmacInit h hashLen key = some c ∧
      hmacDigest h (chunks.foldl (hmacUpdate h) c) = hmacS H key chunks.flatten := by
  -- the key after the first step
  let k := if key.length ≤ 64 then key else H key
  have hkl : k.length ≤ 64 := by
    by_cases h64 : key.length ≤ 64
    · simp only [k, if_pos h64]; exact h64
    · simp only [k, if_neg h64, hH]; exact hl
  have hpl : ∀ x, (hmacPad x k).length = 64 := by
    intro x
    rw [hmacPad_spec x hkl, xorB_length, List.length_append, List.length_replicate, List.length_replicate]
    omega
  have hinit : hmacInit h hashLen key = some ⟨h.update h.init (hmacPad 0x36 k), hashLen, k⟩ := by
    unfold hmacInit
    by_cases h64 : key.length ≤ 64
    · rw [if_pos h64]; simp only [k, if_pos h64]
    · have hd : h.digest (h.update h.init key) = H key := by
        have := hs.update _ _ key hs.init (by simpa using hk)
        rw [List.nil_append] at this
        exact hs.digest _ _ this hk
      rw [if_neg h64]
      dsimp only
      rw [hd, if_neg (by rw [hH]; omega)]
      simp only [k, if_neg h64]
  refine ⟨_, hinit, ?_⟩
  have hfold : ∀ (cs : List (List Byte)) (c : Hmac σ) (m : List Byte), Rep c.hash m →
      (m ++ cs.flatten).length ≤ N →
      Rep (cs.foldl (hmacUpdate h) c).hash (m ++ cs.flatten) ∧
        (cs.foldl (hmacUpdate h) c).hashLen = c.hashLen ∧ (cs.foldl (hmacUpdate h) c).key = c.key := by
    intro cs
    induction cs with
    | nil => intro c m hr _; exact ⟨by simpa using hr, rfl, rfl⟩
    | cons d cs ih =>
      intro c m hr hlen
      rw [List.flatten_cons, ← List.append_assoc] at hlen ⊢
      have hup : Rep (hmacUpdate h c d).hash (m ++ d) :=
        hs.update _ _ d hr (by rw [List.length_append] at hlen; omega)
      exact ih (hmacUpdate h c d) (m ++ d) hup hlen
  have h0 : Rep (h.update h.init (hmacPad 0x36 k)) (hmacPad 0x36 k) := by
    have := hs.update _ _ (hmacPad 0x36 k) hs.init (by rw [List.nil_append, hpl]; omega)
    rwa [List.nil_append] at this
  obtain ⟨g1, g2, g3⟩ := hfold chunks ⟨h.update h.init (hmacPad 0x36 k), hashLen, k⟩ _ h0
    (by rw [List.length_append, hpl]; omega)
  unfold hmacDigest
  dsimp only
  rw [g2, g3, hs.digest _ _ g1 (by rw [List.length_append, hpl]; omega)]
  dsimp only
  rw [List.take_of_length_le (by rw [hH])]
  have h1 : Rep (h.update h.init (hmacPad 0x5c k)) (hmacPad 0x5c k) := by
    have := hs.update _ _ (hmacPad 0x5c k) hs.init (by rw [List.nil_append, hpl]; omega)
    rwa [List.nil_append] at this
  have h2 := hs.update _ _ (H (hmacPad 0x36 k ++ chunks.flatten)) h1
    (by rw [List.length_append, hpl, hH]; omega)
  rw [hs.digest _ _ h2 (by rw [List.length_append, hpl, hH]; omega)]
  unfold hmacS
  dsimp only
  rw [hmacPad_spec _ hkl, hmacPad_spec _ hkl]

-- the hypothesis on hashes is met by a context that just collects the message
example (H : List Byte → List Byte) (N : Nat) :
    Streams ⟨[], fun s d => s ++ d, H⟩ H N (fun s m => s = m) :=
  ⟨rfl, fun _ _ _ h _ => by rw [h], fun _ _ h _ => by rw [h]⟩

end Verif.Modes
