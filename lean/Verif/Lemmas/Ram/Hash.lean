import Verif.Spec.RamHash
import Verif.Lemmas.Ram.Core
import Verif.Lemmas.Hash.Block
/-! The hash functions on memory agree with those on lists. -/
namespace Verif.RamHash
open Verif.Ram Verif.Hash

variable {R : Ram}

/-- Writing into a range just written. -/
theorem put_put_in {a i : Nat} {l d : List Byte} (h : i + d.length ≤ l.length) :
    (R.put a l).put (a + i) d = R.put a (Blk.copyTo l i d) := by
  have hl : l = l.take i ++ ((l.drop i).take d.length ++ l.drop (i + d.length)) := by
    rw [← List.drop_drop, List.take_append_drop, List.take_append_drop]
  have h1 : (l.take i).length = i := by rw [List.length_take]; omega
  have h2 : ((l.drop i).take d.length).length = d.length := by rw [List.length_take, List.length_drop]; omega
  conv_lhs => rw [hl]
  unfold Blk.copyTo
  rw [put_append, put_append, h1, h2, put_comm (a := a + i + d.length) (by unfold Apart; omega), put_put_same (by omega),
    put_append, put_append, h1]
  congr 1
  rw [List.length_append, h1]; omega

theorem put_put_at {a i : Nat} {l : List Byte} (x : Byte) (h : i < l.length) :
    (R.put a l).put (a + i) [x] = R.put a (l.set i x) := by
  rw [put_put_in (by simp; omega), List.set_eq_take_append_cons_drop, if_pos h]
  simp [Blk.copyTo]

theorem fill_eq {p n : Nat} (v : Byte) (h : R.Owned p n) : fill R p v n = some (R.put p (List.replicate n v)) := if_pos h

theorem stores_eq {p : Nat} {l : List Byte} (h : R.Owned p l.length) : stores R p l = some (R.put p l) := if_pos h

theorem store_eq {p : Nat} {v : Byte} (h : R.Owned p 1) : store R p v = some (R.put p [v]) := if_pos (h 0 (by omega))

theorem load_eq {p : Nat} (h : R.Owned p 1) : load R p = some (R.mem p) := if_pos (h 0 (by omega))

theorem storeIn_eq {B dat i : Nat} {l : List Byte} {v : Byte} (hl : l.length = B) (h : i < B) (ho : R.Owned dat B) :
    storeIn B dat (R.put dat l) i v = some (R.put dat (l.set i v)) := by
  unfold storeIn
  rw [if_pos h, store_eq (R := R.put dat l) (by ownof ho), put_put_at _ (by omega)]

theorem copyIn_eq {B dat i p n : Nat} {l : List Byte} (hl : l.length = B) (h : i + n ≤ B) (ho : R.Owned dat B)
    (hp : R.Owned p n) (ha : Apart dat B p n) :
    copyIn B dat (R.put dat l) i p n = some (R.put dat (Blk.copyTo l i (R.bytes p n))) := by
  unfold copyIn
  rw [if_pos h, memcpy_eq (by ownof hp) (by ownof ho) (by apof ha), put_put_in (by rw [bytes_length]; omega),
    bytes_put_apart (by rw [hl]; exact ha)]

theorem proc_eq {σ : Type} {f : σ → List Byte → σ} {B p : Nat} (st : σ) (h : R.Owned p B) :
    proc f B R st p = some (f st (R.bytes p B)) := if_pos h

theorem proc_self {σ : Type} {f : σ → List Byte → σ} {B dat : Nat} {l : List Byte} (st : σ) (hl : l.length = B)
    (h : R.Owned dat B) : proc f B (R.put dat l) st dat = some (f st l) := by
  rw [proc_eq st (by ownof h), bytes_put_same hl]

theorem whole_le {σ : Type} (B : Nat) (f : σ → List Byte → σ) : ∀ (n : Nat) (st : σ) (d : List Byte),
    (Blk.whole B f n st d).2.length ≤ d.length
  | 0, _, _ => le_rfl
  | n + 1, st, d => by
    rw [Blk.whole]
    split
    · exact (whole_le B f n _ _).trans (by rw [List.length_drop]; omega)
    · exact le_rfl

theorem whole_lt {σ : Type} {B : Nat} (hB : 0 < B) (f : σ → List Byte → σ) : ∀ (n : Nat) (st : σ) (d : List Byte),
    d.length ≤ n → (Blk.whole B f n st d).2.length < B
  | 0, _, d, h => by rw [Blk.whole]; show d.length < B; omega
  | n + 1, st, d, h => by
    rw [Blk.whole]
    split
    · exact whole_lt hB f n _ _ (by rw [List.length_drop]; omega)
    · show d.length < B; omega

theorem whole_eq {σ : Type} (f : σ → List Byte → σ) (B : Nat) : ∀ (n : Nat) (st : σ) (p len : Nat), R.Owned p len →
    whole f B R n st p len = some ((Blk.whole B f n st (R.bytes p len)).1,
      p + (len - (Blk.whole B f n st (R.bytes p len)).2.length), (Blk.whole B f n st (R.bytes p len)).2.length) ∧
    (Blk.whole B f n st (R.bytes p len)).2 = R.bytes (p + (len - (Blk.whole B f n st (R.bytes p len)).2.length))
      (Blk.whole B f n st (R.bytes p len)).2.length
  | 0, st, p, len, _ => by simp [whole, Blk.whole]
  | n + 1, st, p, len, h => by
    rw [whole, Blk.whole, bytes_length]
    split
    · next hB =>
      rw [proc_eq st (by ownof h), Option.bind_some, ← bytes_take (R := R) (a := p) (n := len) rfl hB, ← bytes_drop (R := R) (a := p) (n := len) rfl hB]
      have ih := whole_eq f B n (f st (R.bytes p B)) (p + B) (len - B) (by ownof h)
      have hle := whole_le B f n (f st (R.bytes p B)) (R.bytes (p + B) (len - B))
      rw [bytes_length] at hle
      rw [ih.1]
      generalize (Blk.whole B f n (f st (R.bytes p B)) (R.bytes (p + B) (len - B))) = r at *
      have e : p + B + (len - B - r.2.length) = p + (len - r.2.length) := by omega
      rw [e] at ih
      exact ⟨by rw [e], ih.2⟩
    · simp

theorem tail_eq {σ : Type} {f : σ → List Byte → σ} {B dat n left p len : Nat} {l : List Byte} (st : σ) (hl : l.length = B)
    (ho : R.Owned dat B) (hp : R.Owned p len) (ha : Apart dat B p len)
    (hf : left + (Blk.whole B f n st (R.bytes p len)).2.length ≤ B) :
    tail f B dat (R.put dat l) n st left p len =
      some (R.put dat (if 0 < (Blk.whole B f n st (R.bytes p len)).2.length then
          Blk.copyTo l left (Blk.whole B f n st (R.bytes p len)).2 else l),
        (Blk.whole B f n st (R.bytes p len)).1) := by
  have hw := whole_eq (R := R.put dat l) f B n st p len (by ownof hp)
  rw [bytes_put_apart (R := R) (by rw [hl]; exact ha)] at hw
  have hle := whole_le B f n st (R.bytes p len)
  rw [bytes_length] at hle
  unfold tail
  rw [hw.1, Option.bind_some]
  have h2 := hw.2
  rw [bytes_put_apart (by rw [hl]; apof ha)] at h2
  dsimp only
  split
  · rw [copyIn_eq hl hf ho (by ownof hp) (by apof ha), Option.map_some, ← h2]
  · rfl

/-- An update in memory is an update of the list. -/
theorem update_eq {w : Nat} {σ : Type} {B : Nat} {f : σ → List Byte → σ} {dat p len : Nat} {l : List Byte} (c : Fields w σ)
    (hB : 0 < B) (hl : l.length = B) (hm : (c.len0 &&& BitVec.ofNat w (B - 1)).toNat < B)
    (ho : R.Owned dat B) (hp : R.Owned p len) (ha : Apart dat B p len) :
    update B f dat (R.put dat l) c p len =
      some (R.put dat (Blk.update B f ⟨l, c.len0, c.len1, c.state⟩ (R.bytes p len)).data,
        ⟨(Blk.update B f ⟨l, c.len0, c.len1, c.state⟩ (R.bytes p len)).len0,
         (Blk.update B f ⟨l, c.len0, c.len1, c.state⟩ (R.bytes p len)).len1,
         (Blk.update B f ⟨l, c.len0, c.len1, c.state⟩ (R.bytes p len)).state⟩) := by
  unfold update Blk.update
  rw [bytes_length]
  dsimp only
  generalize (c.len0 &&& BitVec.ofNat w (B - 1)).toNat = left at *
  by_cases h0 : len = 0
  · rw [if_pos h0, if_pos h0]
  · rw [if_neg h0, if_neg h0]
    by_cases hc : left ≠ 0 ∧ B - left ≤ len
    · rw [if_pos hc, if_pos hc, copyIn_eq hl (by omega) ho (by ownof hp) (by apof ha), Option.bind_some,
        bytes_take (R := R) (a := p) (n := len) rfl hc.2]
      have hk : (Blk.copyTo l left ((R.bytes p len).take (B - left))).length = B := by
        rw [Blk.copyTo_length] <;> rw [hl]
        rw [List.length_take, bytes_length]; omega
      rw [proc_self _ hk ho, Option.bind_some, tail_eq _ hk ho (by ownof hp) (by apof ha), Option.map_some,
        bytes_drop (R := R) (a := p) (n := len) rfl hc.2]
      have := whole_lt hB f len (f c.state (Blk.copyTo l left ((R.bytes p len).take (B - left))))
        (R.bytes (p + (B - left)) (len - (B - left))) (by rw [bytes_length]; omega)
      omega
    · rw [if_neg hc, if_neg hc, tail_eq _ hl ho hp ha, Option.map_some]
      by_cases hz : left = 0
      · have := whole_lt hB f len c.state (R.bytes p len) (by rw [bytes_length])
        omega
      · have := whole_le B f len c.state (R.bytes p len)
        rw [bytes_length] at this
        omega

/-- The mask of the counter. -/
theorem mask_lt {w : Nat} (x : BitVec w) {B : Nat} (hB : 0 < B) : (x &&& BitVec.ofNat w (B - 1)).toNat < B := by
  rw [BitVec.toNat_and, BitVec.toNat_ofNat]
  have h1 := Nat.and_le_right (n := x.toNat) (m := (B - 1) % 2 ^ w)
  have h2 := Nat.mod_le (B - 1) (2 ^ w)
  omega

/-! ### Sequences of calls -/

theorem updates_computes {κ : Type} {H : Itf κ} {f : List Byte → List Byte} {dat B hl N : Nat} {scr : List (Nat × Nat)}
    {Is : List Byte → κ → List Byte → Prop} (h : Computes H f dat B hl N scr Is) (ho : R.Owned dat B) :
    ∀ (calls : List (Nat × Nat)) (l : List Byte) (c : κ) (m : List Byte), Is l c m →
    (∀ q ∈ calls, R.Owned q.1 q.2 ∧ Apart dat B q.1 q.2 ∧ q.2 ≤ N) →
    ∃ l' c', updates H (R.put dat l) c calls = some (R.put dat l', c') ∧
      Is l' c' (m ++ (calls.map fun q => R.bytes q.1 q.2).flatten)
  | [], l, c, m, hi, _ => ⟨l, c, rfl, by simpa using hi⟩
  | q :: qs, l, c, m, hi, hq => by
    obtain ⟨h1, h2, h3⟩ := hq q (by simp)
    obtain ⟨l1, c1, e1, i1⟩ := h.update hi ho h1 h2 h3
    obtain ⟨l2, c2, e2, i2⟩ := updates_computes h ho qs l1 c1 _ i1 fun x hx => hq x (by simp [hx])
    refine ⟨l2, c2, ?_, ?_⟩
    · rw [updates, e1, Option.bind_some, e2]
    · rw [List.map_cons, List.flatten_cons, ← List.append_assoc]; exact i2

theorem hash_computes {κ : Type} {H : Itf κ} {f : List Byte → List Byte} {dat B hl N : Nat} {scr : List (Nat × Nat)}
    {Is : List Byte → κ → List Byte → Prop} (h : Computes H f dat B hl N scr Is) (ho : R.Owned dat B)
    (hs : AllOwned R scr) (hap : AllApart ((dat, B) :: scr)) {out : Nat} (hout : R.Owned out hl) (hod : Apart out hl dat B)
    (calls : List (Nat × Nat)) (hq : ∀ q ∈ calls, R.Owned q.1 q.2 ∧ Apart dat B q.1 q.2 ∧ q.2 ≤ N) :
    ∃ R', hash H R calls out = some R' ∧
      Wrote R R' [(out, f (calls.map fun q => R.bytes q.1 q.2).flatten), (dat, List.replicate B 0)] scr := by
  obtain ⟨l0, c0, e0, i0⟩ := h.init ho
  obtain ⟨l1, c1, e1, i1⟩ := updates_computes h ho calls l0 c0 [] i0 hq
  rw [List.nil_append] at i1
  generalize (calls.map fun q => R.bytes q.1 q.2).flatten = m at *
  obtain ⟨Q, c2, e2, w2⟩ := h.digest i1 ho hs hout hap
  have hoQ : (Q.put out (f m)).Owned dat B := by
    intro i hi
    show Q.own _ = true
    rw [w2.own]; exact ho i hi
  obtain ⟨c3, e3⟩ := h.clear (c := c2) hoQ
  refine ⟨_, by rw [hash, e0, Option.bind_some, e1, Option.bind_some, e2, Option.bind_some, e3, Option.map_some], ?_⟩
  refine ⟨w2.own, w2.tmp, ?_, ?_⟩
  · intro x hx
    simp only [List.mem_cons, List.not_mem_nil, or_false] at hx
    rcases hx with rfl | rfl
    · dsimp only
      rw [bytes_put_apart (by rw [List.length_replicate, h.len]; exact hod.flip), bytes_put_same rfl]
    · exact bytes_put_same rfl
  · intro x hx hy
    have h1 := hx _ (List.mem_cons_self ..)
    have h2 := hx _ (List.mem_cons_of_mem _ (List.mem_cons_self ..))
    rw [put_mem_out h2, put_mem_out h1]
    refine w2.else_ x (by simp) fun r hr => ?_
    rcases List.mem_cons.1 hr with rfl | hr
    · simpa using h2
    · exact hy r hr

end Verif.RamHash
