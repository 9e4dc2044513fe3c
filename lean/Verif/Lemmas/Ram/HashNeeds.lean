import Verif.Lemmas.Ram.HashItf
/-! Every byte of the message is read: one that may not be read makes the call undefined. -/
namespace Verif.RamHash
open Verif.Ram Verif.Hash

theorem owned_join {R : Ram} {p m n : Nat} (h1 : R.Owned p m) (h2 : R.Owned (p + m) n) : R.Owned p (m + n) := by
  intro i hi
  by_cases h : i < m
  · exact h1 i h
  · have := h2 (i - m) (by omega)
    rwa [show p + m + (i - m) = p + i by omega] at this

theorem store_own {R R' : Ram} {p : Nat} {v : Byte} (h : store R p v = some R') : R'.own = R.own := by
  unfold store at h
  split at h
  · cases h; rfl
  · exact absurd h (by simp)

theorem storeIn_own {R R' : Ram} {B dat i : Nat} {v : Byte} (h : storeIn B dat R i v = some R') : R'.own = R.own := by
  unfold storeIn at h
  split at h
  · exact store_own h
  · exact absurd h (by simp)

theorem sha256Update_needs (dat : Nat) : ∀ (n p : Nat) (R : Ram) (c : Fields256), ¬ R.Owned p n →
    sha256Update dat R c p n = none
  | 0, p, R, c, h => absurd (fun i hi => absurd hi (by omega)) h
  | n + 1, p, R, c, h => by
    rw [sha256Update]
    unfold load
    split
    · next ho =>
      rw [Option.bind_some]
      have hr : ¬ R.Owned (p + 1) n := fun hc => h (by
        rw [Nat.add_comm]; exact owned_join (m := 1) (fun i hi => by rw [show i = 0 by omega]; exact ho) hc)
      cases hs : storeIn 64 dat R c.datalen (R.mem p) with
      | none => rfl
      | some R' =>
        have hr' : ¬ R'.Owned (p + 1) n := fun hc => hr (fun i hi => by rw [← storeIn_own hs]; exact hc i hi)
        rw [Option.bind_some]
        split
        · cases proc Sha256.transform 64 R' c.state dat with
          | none => rfl
          | some st => rw [Option.bind_some]; exact sha256Update_needs dat n (p + 1) R' _ hr'
        · exact sha256Update_needs dat n (p + 1) R' _ hr'
    · rfl

theorem md5Feed_needs (dat : Nat) : ∀ (n p mdi : Nat) (R : Ram) (st : HashS.Regs4), ¬ R.Owned p n →
    md5Feed dat R mdi st p n = none
  | 0, p, mdi, R, st, h => absurd (fun i hi => absurd hi (by omega)) h
  | n + 1, p, mdi, R, st, h => by
    rw [md5Feed]
    unfold load
    split
    · next ho =>
      rw [Option.bind_some]
      have hr : ¬ R.Owned (p + 1) n := fun hc => h (by
        rw [Nat.add_comm]; exact owned_join (m := 1) (fun i hi => by rw [show i = 0 by omega]; exact ho) hc)
      cases hs : storeIn 64 dat R mdi (R.mem p) with
      | none => rfl
      | some R' =>
        have hr' : ¬ R'.Owned (p + 1) n := fun hc => hr (fun i hi => by rw [← storeIn_own hs]; exact hc i hi)
        rw [Option.bind_some]
        split
        · cases md5Words dat R' 16 with
          | none => rfl
          | some inp => rw [Option.bind_some]; exact md5Feed_needs dat n (p + 1) 0 R' _ hr'
        · exact md5Feed_needs dat n (p + 1) _ R' _ hr'
    · rfl

theorem memcpy_needs {R : Ram} {d s n : Nat} (h : ¬ R.Owned s n) : memcpy R d s n = none := if_neg fun hc => h hc.1

theorem memcpy_own {R R' : Ram} {d s n : Nat} (h : memcpy R d s n = some R') : R'.own = R.own ∧ R.Owned s n := by
  unfold memcpy at h
  split at h
  · next hc => cases h; exact ⟨rfl, hc.1⟩
  · exact absurd h (by simp)

theorem copyIn_needs {R : Ram} {B dat i s n : Nat} (h : ¬ R.Owned s n) : copyIn B dat R i s n = none := by
  unfold copyIn
  split
  · exact memcpy_needs h
  · rfl

theorem copyIn_own {R R' : Ram} {B dat i s n : Nat} (h : copyIn B dat R i s n = some R') : R'.own = R.own ∧ R.Owned s n := by
  unfold copyIn at h
  split at h
  · exact memcpy_own h
  · exact absurd h (by simp)

theorem whole_needs {σ : Type} (f : σ → List Byte → σ) (B : Nat) (R : Ram) : ∀ (n : Nat) (st : σ) (p len : Nat),
    ¬ R.Owned p len → whole f B R n st p len = none ∨
      ∃ st' p' len', whole f B R n st p len = some (st', p', len') ∧ ¬ R.Owned p' len'
  | 0, st, p, len, h => .inr ⟨_, _, _, rfl, h⟩
  | n + 1, st, p, len, h => by
    rw [whole]
    split
    · next hB =>
      unfold proc
      split
      · next ho =>
        rw [Option.bind_some]
        refine whole_needs f B R n _ _ _ fun hc => h ?_
        have := owned_join ho hc
        rwa [Nat.add_sub_cancel' hB] at this
      · exact .inl rfl
    · exact .inr ⟨_, _, _, rfl, h⟩

theorem tail_needs {σ : Type} (f : σ → List Byte → σ) (B dat : Nat) (R : Ram) (n : Nat) (st : σ) (left p len : Nat)
    (h : ¬ R.Owned p len) : tail f B dat R n st left p len = none := by
  unfold tail
  rcases whole_needs f B R n st p len h with e | ⟨st', p', len', e, h'⟩
  · rw [e]; rfl
  · rw [e, Option.bind_some]
    dsimp only
    have : 0 < len' := Nat.pos_of_ne_zero fun e => h' (by rw [e]; intro i hi; omega)
    rw [if_pos this, copyIn_needs h']; rfl

theorem update_needs {w : Nat} {σ : Type} (f : σ → List Byte → σ) (B dat : Nat) (R : Ram) (c : Fields w σ) (p len : Nat)
    (h : ¬ R.Owned p len) : update B f dat R c p len = none := by
  unfold update
  rw [if_neg (fun e => h (by rw [e]; intro i hi; omega))]
  dsimp only
  generalize (c.len0 &&& BitVec.ofNat w (B - 1)).toNat = left
  split
  · next hc =>
    cases e : copyIn B dat R left p (B - left) with
    | none => rfl
    | some R' =>
      obtain ⟨e1, e2⟩ := copyIn_own e
      rw [Option.bind_some]
      cases proc f B R' c.state dat with
      | none => rfl
      | some st =>
        rw [Option.bind_some, tail_needs]
        · rfl
        · intro hr
          apply h
          have := owned_join e2 (fun i hi => by rw [← e1]; exact hr i hi)
          rwa [Nat.add_sub_cancel' hc.2] at this
  · rw [tail_needs _ _ _ _ _ _ _ _ _ h]; rfl

end Verif.RamHash
