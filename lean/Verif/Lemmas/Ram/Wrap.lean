import Verif.Model.Ram.Wrap
import Verif.Lemmas.Ram.Core
import Verif.Lemmas.Modes.Wrap
import Verif.Spec.Ram
import Verif.Props.Crypt.Aes
/-! AES key wrap on memory: each loop against the loops on lists. -/
namespace Verif.Ram
open Verif.Modes

variable {R : Ram} {E D : List Byte → List Byte}

theorem put_xor7 {a : Nat} {l : List Byte} (hl : l.length = 8) (t : Nat) :
    (R.put a l).put (a + 7) [(R.put a l).mem (a + 7) ^^^ BitVec.ofNat 8 t] = R.put a (xor7 l t) := by
  obtain ⟨l', x, rfl, h7⟩ : ∃ l' x, l = l' ++ [x] ∧ l'.length = 7 :=
    ⟨l.dropLast, l.getLast (by intro h; simp [h] at hl), (List.dropLast_concat_getLast _).symm, by simp [hl]⟩
  rw [put_mem_in (by omega)]
  have hx : (l' ++ [x])[7]'(by omega) = x := by
    rw [List.getElem_append_right (by omega)]; simp [h7]
  have hm : xor7 (l' ++ [x]) t = l' ++ [x ^^^ BitVec.ofNat 8 t] := by
    match l', h7 with
    | [_, _, _, _, _, _, _], _ => rfl
  rw [hx, hm, put_append, put_append, h7, put_put_same (by simp)]

theorem wrapTurn_eq {c : Aes.Ctx} (he : ∀ b, b.length = 16 → Aes.encrypt c b = (E b, c))
    (hE : ∀ b, b.length = 16 → (E b).length = 16) {a r t : Nat} (oa : R.Owned a 8) (or : R.Owned r 8) :
    wrapTurn c R a r t = some ((R.put a (xor7 ((E (R.bytes a 8 ++ R.bytes r 8)).take 8) t)).put r
      ((E (R.bytes a 8 ++ R.bytes r 8)).drop 8), c) := by
  have hl : (R.bytes a 8 ++ R.bytes r 8).length = 16 := by simp
  unfold wrapTurn
  rw [if_pos ⟨oa, or⟩]
  dsimp only
  rw [he _ hl]
  dsimp only
  rw [put_xor7 (by rw [List.length_take, hE _ hl]; omega)]

theorem wrapInner_length (hE : ∀ b, b.length = 16 → (E b).length = 16) (n i : Nat) : ∀ (k j : Nat) (a r : List Byte),
    a.length = 8 → 8 * k ≤ r.length →
    (wrapInner E n i k j a r).1.length = 8 ∧ (wrapInner E n i k j a r).2.length = r.length
  | 0, _, a, r, ha, _ => ⟨ha, rfl⟩
  | k + 1, j, a, r, ha, hr => by
    have hl : (E (a ++ r.take 8)).length = 16 := hE _ (by rw [List.length_append, List.length_take]; omega)
    obtain ⟨h1, h2⟩ := wrapInner_length hE n i k (j + 1) (xor7 ((E (a ++ r.take 8)).take 8) (n * i + j)) (r.drop 8)
      (by rw [xor7_length, List.length_take]; omega) (by rw [List.length_drop]; omega)
    rw [wrapInner]
    dsimp only
    refine ⟨h1, ?_⟩
    rw [List.length_append, h2, List.length_drop, List.length_drop]
    omega

theorem wrapTurns_eq {c : Aes.Ctx} (he : ∀ b, b.length = 16 → Aes.encrypt c b = (E b, c))
    (hE : ∀ b, b.length = 16 → (E b).length = 16) {a : Nat} (n i : Nat) : ∀ (k j : Nat) (R : Ram) (r m : Nat),
    R.Owned a 8 → R.Owned r m → 8 * k ≤ m → a + 8 ≤ r →
    wrapTurns a n i k j c R r = some ((R.put a (wrapInner E n i k j (R.bytes a 8) (R.bytes r m)).1).put r
      (wrapInner E n i k j (R.bytes a 8) (R.bytes r m)).2, c)
  | 0, _, R, r, m, _, _, _, _ => by rw [wrapTurns, wrapInner, put_bytes, put_bytes]
  | k + 1, j, R, r, m, oa, or, hm, har => by
    have hb : R.bytes r m = R.bytes r 8 ++ R.bytes (r + 8) (m - 8) := bytes_split r (by omega)
    have hl : (E (R.bytes a 8 ++ R.bytes r 8)).length = 16 := hE _ (by simp)
    rw [wrapTurns, wrapTurn_eq he hE oa (by ownof or), Option.bind_some, wrapInner, hb, List.take_left' (by simp),
      List.drop_left' (by simp)]
    dsimp only
    generalize hx : E (R.bytes a 8 ++ R.bytes r 8) = x at hl ⊢
    have hx1 : (xor7 (x.take 8) (n * i + j)).length = 8 := by rw [xor7_length, List.length_take]; omega
    have hx2 : (x.drop 8).length = 8 := by rw [List.length_drop]; omega
    generalize xor7 (x.take 8) (n * i + j) = y at hx1 ⊢
    generalize x.drop 8 = z at hx2 ⊢
    rw [wrapTurns_eq he hE n i k (j + 1) _ (r + 8) (m - 8) (by ownof oa) (by ownof or) (by omega) (by omega)]
    have e1 : ((R.put a y).put r z).bytes a 8 = y := by
      rw [bytes_put_apart (by rw [hx2]; apt), bytes_put_same hx1]
    have e2 : ((R.put a y).put r z).bytes (r + 8) (m - 8) = R.bytes (r + 8) (m - 8) := by
      rw [bytes_put_apart (by rw [hx2]; apt), bytes_put_apart (by rw [hx1]; apt)]
    rw [e1, e2]
    obtain ⟨g1, g2⟩ := wrapInner_length hE n i k (j + 1) y (R.bytes (r + 8) (m - 8)) hx1 (by rw [bytes_length]; omega)
    generalize wrapInner E n i k (j + 1) y (R.bytes (r + 8) (m - 8)) = w at g1 g2 ⊢
    rw [put_comm (a := r) (b := a) (by rw [hx2, g1]; apt), put_put_same (by omega), put_append, hx2]

theorem wrapPasses_eq {c : Aes.Ctx} (he : ∀ b, b.length = 16 → Aes.encrypt c b = (E b, c))
    (hE : ∀ b, b.length = 16 → (E b).length = 16) {out : Nat} (n len : Nat) (hn : 8 * n ≤ len) : ∀ (is : List Nat) (R : Ram),
    R.Owned out (8 + len) →
    wrapPasses out n is c R = some (R.put out
      ((is.foldl (fun s i => wrapInner E n i n 1 s.1 s.2) (R.bytes out 8, R.bytes (out + 8) len)).1 ++
       (is.foldl (fun s i => wrapInner E n i n 1 s.1 s.2) (R.bytes out 8, R.bytes (out + 8) len)).2), c) ∧
    (is.foldl (fun s i => wrapInner E n i n 1 s.1 s.2) (R.bytes out 8, R.bytes (out + 8) len)).1.length = 8 ∧
    (is.foldl (fun s i => wrapInner E n i n 1 s.1 s.2) (R.bytes out 8, R.bytes (out + 8) len)).2.length = len
  | [], R, _ => by
    rw [wrapPasses, List.foldl_nil, ← bytes_add, put_bytes]
    exact ⟨rfl, by simp, by simp⟩
  | i :: is, R, o => by
    rw [wrapPasses, wrapTurns_eq he hE n i n 1 R (out + 8) len (by ownof o) (by ownof o) hn (by omega), Option.bind_some,
      List.foldl_cons]
    obtain ⟨g1, g2⟩ := wrapInner_length hE n i n 1 (R.bytes out 8) (R.bytes (out + 8) len) (by simp) (by simpa using hn)
    dsimp only
    generalize wrapInner E n i n 1 (R.bytes out 8) (R.bytes (out + 8) len) = w at g1 g2 ⊢
    rw [bytes_length] at g2
    have ep : (R.put out w.1).put (out + 8) w.2 = R.put out (w.1 ++ w.2) := by rw [put_append, g1]
    obtain ⟨i1, i2, i3⟩ := wrapPasses_eq he hE n len hn is ((R.put out w.1).put (out + 8) w.2) o
    have e1 : ((R.put out w.1).put (out + 8) w.2).bytes out 8 = w.1 := by
      rw [bytes_put_apart (by rw [g2]; apt), bytes_put_same g1]
    have e2 : ((R.put out w.1).put (out + 8) w.2).bytes (out + 8) len = w.2 := bytes_put_same g2
    rw [e1, e2] at i1 i2 i3
    refine ⟨?_, i2, i3⟩
    rw [i1, ep, put_put_same (by rw [List.length_append, List.length_append]; omega)]

/-- A write inside of a range, as a write of the whole range. -/
theorem put_inside {out n k : Nat} {l : List Byte} (h : k + l.length ≤ n) :
    R.put (out + k) l = R.put out (wr (R.bytes out n) k l) := by
  have hb : R.bytes out n = R.bytes out k ++ (R.bytes (out + k) l.length ++ R.bytes (out + k + l.length) (n - k - l.length)) := by
    rw [← bytes_add, ← bytes_add]; congr 1; omega
  have h1 : (R.bytes out n).take k = R.bytes out k := by rw [hb, List.take_left' (by simp)]
  have h2 : (R.bytes out n).drop (k + l.length) = R.bytes (out + k + l.length) (n - k - l.length) := by
    rw [hb, ← List.append_assoc, List.drop_left' (by simp)]
  rw [wr, h1, h2, List.append_assoc, put_append, put_bytes, bytes_length, put_append]
  refine (put_bytes (R := R.put (out + k) l) (out + k + l.length) (n - k - l.length)).symm.trans ?_
  rw [bytes_put_apart (by apt)]

theorem wr_length {b : List Byte} {k : Nat} {l : List Byte} (h : k + l.length ≤ b.length) : (wr b k l).length = b.length := by
  rw [wr, List.length_append, List.length_append, List.length_take, List.length_drop]; omega

theorem rd_bytes {out n k m : Nat} (h : k + m ≤ n) : rd (R.bytes out n) k m = R.bytes (out + k) m := by
  have hb : R.bytes out n = R.bytes out k ++ (R.bytes (out + k) m ++ R.bytes (out + k + m) (n - k - m)) := by
    rw [← bytes_add, ← bytes_add]; congr 1; omega
  rw [rd, hb, List.drop_left' (by simp), List.take_left' (by simp)]

theorem unwrapTurns_eq {P : Aes.Ctx → Prop} (hd : ∀ c b, P c → b.length = 16 → (Aes.decrypt c b).1 = D b ∧ P (Aes.decrypt c b).2)
    (hD : ∀ b, b.length = 16 → (D b).length = 16) {out : Nat} (n i len : Nat) : ∀ (k : Nat) (R : Ram) (c : Aes.Ctx)
    (a : List Byte) (b : Option (List Byte)), P c → R.Owned out len → 8 * k ≤ len → a.length = 8 →
    ∃ c' b', P c' ∧ unwrapTurns out n i k R c a b = some (R.put out (unwrapInner D n i k a (R.bytes out len)).2, c',
        (unwrapInner D n i k a (R.bytes out len)).1, b') ∧
      (unwrapInner D n i k a (R.bytes out len)).1.length = 8 ∧
      (unwrapInner D n i k a (R.bytes out len)).2.length = len ∧
      (b' = if k = 0 then b else b') ∧ (k ≠ 0 → ∃ x, b' = some x ∧ x.take 8 = (unwrapInner D n i k a (R.bytes out len)).1)
  | 0, R, c, a, b, hc, _, _, ha => ⟨c, b, hc, by rw [unwrapTurns, unwrapInner, put_bytes], ha, by simp [unwrapInner], by simp, by simp⟩
  | k + 1, R, c, a, b, hc, o, hk, ha => by
    have hl : (xor7 a (n * i + (k + 1)) ++ R.bytes (out + 8 * k) 8).length = 16 := by
      rw [List.length_append, xor7_length, bytes_length, ha]
    obtain ⟨d1, d2⟩ := hd c _ hc hl
    have hx := hD _ hl
    rw [unwrapTurns, if_pos (by ownof o)]
    rw [unwrapInner, rd_bytes (by omega)]
    dsimp only
    change ∃ c' b', P c' ∧ unwrapTurns out n i k (R.put (out + 8 * k)
      ((Aes.decrypt c (xor7 a (n * i + (k + 1)) ++ R.bytes (out + 8 * k) 8)).1.drop 8))
      (Aes.decrypt c (xor7 a (n * i + (k + 1)) ++ R.bytes (out + 8 * k) 8)).2
      ((Aes.decrypt c (xor7 a (n * i + (k + 1)) ++ R.bytes (out + 8 * k) 8)).1.take 8)
      (some (Aes.decrypt c (xor7 a (n * i + (k + 1)) ++ R.bytes (out + 8 * k) 8)).1) = _ ∧ _
    rw [d1]
    generalize (Aes.decrypt c (xor7 a (n * i + (k + 1)) ++ R.bytes (out + 8 * k) 8)).2 = c1 at d2 ⊢
    generalize D (xor7 a (n * i + (k + 1)) ++ R.bytes (out + 8 * k) 8) = x at hx ⊢
    have h8 : (x.drop 8).length = 8 := by rw [List.length_drop]; omega
    have hw : (wr (R.bytes out len) (8 * k) (x.drop 8)).length = len := by
      rw [wr_length (by rw [h8, bytes_length]; omega), bytes_length]
    rw [put_inside (n := len) (by rw [h8]; omega)]
    obtain ⟨c', b', i1, i2, i3, i4, i5, i6⟩ := unwrapTurns_eq hd hD n i len k
      (R.put out (wr (R.bytes out len) (8 * k) (x.drop 8))) c1 (x.take 8) (some x) d2 o (by omega)
      (by rw [List.length_take]; omega)
    rw [bytes_put_same hw] at i2 i3 i4 i6
    refine ⟨c', b', i1, ?_, i3, i4, by simp, fun _ => ?_⟩
    · rw [i2, put_put_same (by omega)]
    · by_cases h0 : k = 0
      · subst h0
        rw [if_pos rfl] at i5
        exact ⟨x, i5, by rw [unwrapInner]⟩
      · exact i6 h0

theorem unwrapPasses_eq {P : Aes.Ctx → Prop} (hd : ∀ c b, P c → b.length = 16 → (Aes.decrypt c b).1 = D b ∧ P (Aes.decrypt c b).2)
    (hD : ∀ b, b.length = 16 → (D b).length = 16) {out : Nat} (n len : Nat) (hn : 8 * n ≤ len) (hn0 : n ≠ 0) :
    ∀ (is : List Nat) (R : Ram) (c : Aes.Ctx)
    (a : List Byte) (b : Option (List Byte)), P c → R.Owned out len → a.length = 8 →
    (is = [] → ∃ x, b = some x ∧ x.take 8 = a) →
    ∃ x, unwrapPasses out n is R c a b =
        some (R.put out (is.foldl (fun s i => unwrapInner D n i n s.1 s.2) (a, R.bytes out len)).2, some x) ∧
      x.take 8 = (is.foldl (fun s i => unwrapInner D n i n s.1 s.2) (a, R.bytes out len)).1 ∧
      (is.foldl (fun s i => unwrapInner D n i n s.1 s.2) (a, R.bytes out len)).2.length = len
  | [], R, c, a, b, _, _, _, hb => by
    obtain ⟨x, rfl, hx⟩ := hb rfl
    exact ⟨x, by rw [unwrapPasses, List.foldl_nil, put_bytes], hx, by simp⟩
  | i :: is, R, c, a, b, hc, o, ha, _ => by
    obtain ⟨c', b', i1, i2, i3, i4, -, i6⟩ := unwrapTurns_eq hd hD n i len n R c a b hc o hn ha
    rw [unwrapPasses, i2, Option.bind_some, List.foldl_cons]
    dsimp only
    generalize unwrapInner D n i n a (R.bytes out len) = w at i3 i4 i6 ⊢
    obtain ⟨x, j1, j2, j3⟩ := unwrapPasses_eq hd hD n len hn hn0 is (R.put out w.2) c' w.1 b' i1 o i3 (fun _ => i6 hn0)
    rw [bytes_put_same i4] at j1 j2 j3
    refine ⟨x, ?_, j2, j3⟩
    rw [j1, put_put_same (by omega)]

end Verif.Ram
