import Verif.Lemmas.Mem.Kara
/-! Functions whose locals are all initialised by `cry_mpi_init_list`: the locals as a list of integers. -/
namespace Verif.Mem
open Verif.Mpi (Mpi Norm WF val Rep)

variable {w : Nat}

/-- `E`, but the addresses in `as` as in `P`. -/
def Sets (E : Env) (as : List Nat) (P : Obj → Prop) : Env := fun v => if v ∈ as then P else E v

theorem clearList_at {K : Ctx} {S : Nat} : ∀ (as : List Nat) (E : Env) (s : St), At K E S s → (∀ a ∈ as, a < S) →
    (∀ a ∈ as, ∀ o, E a o → Null o ∨ ∃ m, o.Holds m) →
    ∃ s', clearList as s = .ok ((), s') ∧ At K (Sets E as (· = Obj.cleared)) S s' ∧ s.tick ≤ s'.tick
  | [], E, s, h, _, _ => ⟨s, rfl, h.le fun v _ o ho => by unfold Sets; rw [if_neg (by simp)]; exact ho, Nat.le_refl _⟩
  | a :: as, E, s, h, hs, hc => by
    obtain ⟨s1, e1, t1, h1⟩ := clear_run (sp := S) (hc a (by simp) _ (h.objs a (hs a (by simp))))
    have h2 := step_at (P := (· = Obj.cleared)) h (hs a (by simp)) t1 h1
    obtain ⟨s2, e2, h3, t2⟩ := clearList_at as _ s1 h2 (fun b hb => hs b (by simp [hb])) (fun b hb o ho => by
      by_cases hab : b = a
      · subst hab; rw [Function.update_self] at ho; left; rw [ho]; exact null_cleared
      · rw [Function.update_of_ne hab] at ho; exact hc b (by simp [hb]) o ho)
    refine ⟨s2, by rw [clearList, bind_ok e1, e2], h3.le fun v _ o ho => ?_, t1.tick.trans t2⟩
    unfold Sets at *
    by_cases h1 : v ∈ as
    · rw [if_pos h1] at ho; rw [if_pos (by simp [h1])]; exact ho
    · rw [if_neg h1] at ho
      by_cases hab : v = a
      · subst hab; rw [Function.update_self] at ho; rw [if_pos (by simp)]; exact ho
      · rw [Function.update_of_ne hab] at ho; rw [if_neg (by simp [h1, hab])]; exact ho

theorem initListLoop_at {K : Ctx} {E : Env} {S : Nat} (hw : 0 < w) : ∀ (as done : List Nat) (s : St), At K (Sets E done (V w 0 8)) S s →
    (∀ a ∈ done ++ as, a < S) → (done ++ as).Nodup → (∀ a ∈ as, ∀ o, E a o → o.owns = 0) →
    WP (initListLoop done as) (Res K S (Sets E (done ++ as) (V w 0 8)) (Sets E (done ++ as) (fun o => o.owns = 0))) s
  | [], done, s, h, _, _, _ => WP.pure (Or.inl ⟨rfl, by rw [List.append_nil]; exact h⟩)
  | a :: as, done, s, h, hs, hn, ho => by
    have ha : a < S := hs a (by simp)
    have had : a ∉ done := by
      intro hd
      have := List.nodup_append.1 hn
      exact this.2.2 a hd a (by simp) rfl
    have haa : a ∉ as := by
      have := (List.nodup_append.1 hn).2.1
      exact (List.nodup_cons.1 this).1
    have hown : (s.obj a).owns = 0 := by
      have := h.objs a ha
      unfold Sets at this
      rw [if_neg had] at this
      exact ho a (by simp) _ this
    obtain ⟨st, s1, e1, t1, h1⟩ := init_run (w := w) (sp := S) hw hown
    unfold initListLoop
    rcases h1 with ⟨rfl, h1⟩ | ⟨rfl, hf, h1⟩
    · refine WP.bind_run e1 ?_
      rw [if_pos rfl]
      have h2 := step_at h ha t1 h1
      have := initListLoop_at hw as (done ++ [a]) s1 (h2.le fun v _ o hv => ?_) (by simpa using hs) (by simpa using hn)
        (fun b hb => ho b (by simp [hb]))
      · rw [List.append_assoc] at this; exact this
      · unfold Sets at *
        by_cases hva : v = a
        · subst hva; rw [Function.update_self] at hv; rw [if_pos (by simp)]; exact hv
        · rw [Function.update_of_ne hva] at hv
          simp only [List.mem_append, List.mem_singleton, hva, or_false]
          exact hv
    · refine WP.bind_run e1 ?_
      rw [if_neg (by decide)]
      have h2 := step_at h ha t1 h1
      obtain ⟨s2, e2, h3, t2⟩ := clearList_at done _ s1 h2 (fun b hb => hs b (by simp [hb])) (fun b hb o hv => by
        have hba : b ≠ a := fun h => had (h ▸ hb)
        rw [Function.update_of_ne hba] at hv
        unfold Sets at hv
        rw [if_pos hb] at hv
        exact hv.clr)
      refine WP.bind_run e2 (WP.pure (Or.inr ⟨rfl, ?_, h3.le fun v _ o hv => ?_⟩))
      · obtain ⟨k, k1, k2, k3⟩ := hf
        exact ⟨k, h.tick.trans k1, by omega, by rw [← h.orc]; exact k3⟩
      · unfold Sets at *
        by_cases hd : v ∈ done
        · rw [if_pos hd] at hv
          rw [if_pos (by simp [hd]), hv]; rfl
        · rw [if_neg hd] at hv
          by_cases hva : v = a
          · subst hva
            rw [Function.update_self] at hv
            rw [if_pos (by simp)]; exact hv.owns
          · rw [Function.update_of_ne hva, if_neg hd] at hv
            by_cases hvs : v ∈ as
            · rw [if_pos (by simp [hvs])]; exact ho v (by simp [hvs]) o hv
            · rw [if_neg (by simp [hd, hva, hvs])]; exact hv

/-- All locals hold numbers: `Q` says which, for the integers in `L`. -/
def Nums (Q : Int → Obj → Prop) (sp : Nat) (A : Env) (L : List Int) : Env := fun v => if v < sp then A v else Q (L.getD (v - sp) 0)

theorem Nums.lo {Q : Int → Obj → Prop} {sp v : Nat} {A : Env} {L : List Int} (h : v < sp) : Nums Q sp A L v = A v := if_pos h
theorem Nums.hi {Q : Int → Obj → Prop} {sp i : Nat} {A : Env} {L : List Int} : Nums Q sp A L (sp + i) = Q (L.getD i 0) := by
  unfold Nums; rw [if_neg (by omega), Nat.add_sub_cancel_left]

theorem Nums.set {Q : Int → Obj → Prop} {sp S i : Nat} {A : Env} {L : List Int} {z : Int} (hi : i < L.length) :
    Le S (Function.update (Nums Q sp A L) (sp + i) (Q z)) (Nums Q sp A (L.set i z)) := by
  intro v _ o ho
  by_cases h : v = sp + i
  · subst h
    rw [Function.update_self] at ho
    rw [Nums.hi, List.getD_eq_getElem?_getD, List.getElem?_set_self hi]; exact ho
  · rw [Function.update_of_ne h] at ho
    unfold Nums at *
    by_cases hv : v < sp
    · rw [if_pos hv] at *; exact ho
    · rw [if_neg hv] at *
      rw [List.getD_eq_getElem?_getD, List.getElem?_set_ne (by omega), ← List.getD_eq_getElem?_getD]; exact ho

theorem Nums.set_arg {Q : Int → Obj → Prop} {sp S r : Nat} {A : Env} {L : List Int} {P : Obj → Prop} (hr : r < sp) :
    Le S (Function.update (Nums Q sp A L) r P) (Nums Q sp (Function.update A r P) L) := by
  intro v _ o ho
  unfold Nums
  by_cases h : v = r
  · subst h; rw [Function.update_self] at ho; rw [if_pos hr, Function.update_self]; exact ho
  · rw [Function.update_of_ne h] at ho
    unfold Nums at ho
    by_cases hv : v < sp
    · rw [if_pos hv] at *; rw [Function.update_of_ne h]; exact ho
    · rw [if_neg hv] at *; exact ho

theorem Nums.lv {Q : Int → Obj → Prop} {sp k : Nat} {A B : Env} {L : List Int} (hA : Le sp A B) (hQ : ∀ z o, Q z o → AnyR w o) :
    Le (sp + k) (Nums Q sp A L) (Lv w sp B k) := by
  intro v hv o ho
  unfold Nums Lv at *
  by_cases h : v < sp
  · rw [if_pos h] at *; exact hA v h o ho
  · rw [if_neg h] at *; rw [if_pos hv]; exact hQ _ _ ho

/-- A function whose `k` locals are initialised by `cry_mpi_init_list`. -/
theorem initList_res {K : Ctx} {E G B : Env} {sp k : Nat} {s : St} {as as' : List Nat} {body : M Int} {Q : Int → Obj → Prop} (hw : 0 < w)
    (h : At K (Locals sp E (· = Obj.fresh)) (sp + k) s) (has : ∀ v, v ∈ as ↔ sp ≤ v ∧ v < sp + k) (has' : ∀ v, v ∈ as' ↔ sp ≤ v ∧ v < sp + k)
    (hn : as.Nodup) (hE : Le sp E B) (hQ : ∀ o, V w 0 8 o → Q 0 o)
    (hb : ∀ s', At K (Nums Q sp E (List.replicate k 0)) (sp + k) s' → WP body (Res K (sp + k) (Lv w sp G k) (Lv w sp B k)) s') :
    WP (chk (initList as) (do let st ← body; clearList as'; pure st)) (Res K (sp + k) (Lv w sp G 0) (Lv w sp B 0)) s := by
  have h0 := initListLoop_at (w := w) hw as [] s (E := Locals sp E (· = Obj.fresh)) (h.le fun v _ o ho => by unfold Sets; rw [if_neg (by simp)]; exact ho)
    (by intro a ha; exact ((has a).1 (by simpa using ha)).2) (by simpa using hn) (by
      intro a ha o ho
      rw [Locals.hi ((has a).1 ha).1] at ho
      rw [ho]; rfl)
  rw [List.nil_append] at h0
  refine chk_res h0 ?_ fun s1 h1 => ?_
  · intro v hv o ho
    unfold Sets at ho
    by_cases hvs : v < sp
    · rw [if_neg (by rw [has]; omega), Locals.lo hvs] at ho
      rw [Lv.lo hvs]; exact hE v hvs o ho
    · rw [if_pos (by rw [has]; omega)] at ho
      rw [Lv.hi (by omega)]; exact ho
  · have h2 := hb s1 (h1.le fun v hv o ho => by
      unfold Sets at ho
      unfold Nums
      by_cases hvs : v < sp
      · rw [if_neg (by rw [has]; omega), Locals.lo hvs] at ho
        rw [if_pos hvs]; exact ho
      · rw [if_pos (by rw [has]; omega)] at ho
        rw [if_neg hvs, List.getD_eq_getElem?_getD, List.getElem?_replicate]
        split <;> exact hQ o ho)
    have hc : ∀ (A : Env), ∀ a ∈ as', ∀ o, Lv w sp A k a o → Null o ∨ ∃ m, o.Holds m := fun A a ha o ho => by
      rw [Lv.mid ((has' a).1 ha).1 ((has' a).1 ha).2] at ho; exact ho.clr
    have hl : ∀ A : Env, Le (sp + k) (Sets (Lv w sp A k) as' (· = Obj.cleared)) (Lv w sp A 0) := fun A v hv o ho => by
      unfold Sets at ho
      by_cases hvs : v < sp
      · rw [if_neg (by rw [has']; omega), Lv.lo hvs] at ho
        rw [Lv.lo hvs]; exact ho
      · rw [if_pos (by rw [has']; omega)] at ho
        rw [Lv.hi (by omega), ho]; rfl
    refine WP.fin (h2.mono fun st s2 h2 => ?_)
    rcases h2 with ⟨e, h2⟩ | ⟨e, f, h2⟩
    · obtain ⟨s3, e3, h3, -⟩ := clearList_at as' _ s2 h2 (fun a ha => ((has' a).1 ha).2) (hc G)
      exact ⟨(), s3, e3, Or.inl ⟨e, h3.le (hl G)⟩⟩
    · obtain ⟨s3, e3, h3, t3⟩ := clearList_at as' _ s2 h2 (fun a ha => ((has' a).1 ha).2) (hc B)
      exact ⟨(), s3, e3, Or.inr ⟨e, f.mono t3, h3.le (hl B)⟩⟩

section
variable {K : Ctx} {A G B : Env} {sp N : Nat} {s : St} {k : M Int} {L : List Int} {i j l : Nat}

/-- A call that writes to a local. -/
theorem st_num {Q : Int → Obj → Prop} {c : M Int} {z : Int} {bad : Obj → Prop} (h : At K (Nums Q sp A L) (sp + N) s) (hL : L.length = N) (hA : Le sp A B)
    (hQ : ∀ z o, Q z o → AnyR w o) (hi : i < N) (hl : Leaf (sp + N) s (sp + i) c (Q z) bad) (hbad : ∀ o, bad o → AnyR w o)
    (hk : ∀ s', At K (Nums Q sp A (L.set i z)) (sp + N) s' → WP k (Res K (sp + N) G (Lv w sp B N)) s') :
    WP (chk c k) (Res K (sp + N) G (Lv w sp B N)) s := by
  refine chk_res (leaf_at h (by omega) hl) ?_ fun s' h' => hk s' (h'.le (Nums.set (by omega)))
  exact Le.update (Nums.lv hA hQ) fun o ho => by rw [Lv.mid (by omega) (by omega)]; exact hbad o ho

theorem Nums.val {Q : Int → Obj → Prop} (h : At K (Nums Q sp A L) (sp + N) s) (hj : j < N) : Q (L.getD j 0) (s.obj (sp + j)) := by
  have := h.objs (sp + j) (by omega)
  rwa [Nums.hi] at this
theorem Nums.arg {Q : Int → Obj → Prop} {v : Nat} (h : At K (Nums Q sp A L) (sp + N) s) (hv : v < sp) : A v (s.obj v) := by
  have := h.objs v (by omega)
  rwa [Nums.lo hv] at this

/-- Locals that hold normalised numbers (zero may carry a sign). -/
abbrev NumsR (w : Nat) := Nums (fun z => R w z 0)

theorem r_any : ∀ (z : Int) (o : Obj), R w z 0 o → AnyR w o := fun _ _ h => h.any

theorem nr_add (hw : 0 < w) (h : At K (NumsR w sp A L) (sp + N) s) (hL : L.length = N) (hA : Le sp A B) (hi : i < N) (hj : j < N) (hl : l < N)
    (hk : ∀ s', At K (NumsR w sp A (L.set i (L.getD j 0 + L.getD l 0))) (sp + N) s' → WP k (Res K (sp + N) G (Lv w sp B N)) s') :
    WP (chk (add (2 ^ w) (sp + i) (sp + j) (sp + l)) k) (Res K (sp + N) G (Lv w sp B N)) s :=
  st_num h hL hA r_any hi (addR hw (Nums.val h hi) (Nums.val h hj).rs (Nums.val h hl).rs) (fun _ ho => ho.any) hk
theorem nr_sub (hw : 0 < w) (h : At K (NumsR w sp A L) (sp + N) s) (hL : L.length = N) (hA : Le sp A B) (hi : i < N) (hj : j < N) (hl : l < N)
    (hk : ∀ s', At K (NumsR w sp A (L.set i (L.getD j 0 - L.getD l 0))) (sp + N) s' → WP k (Res K (sp + N) G (Lv w sp B N)) s') :
    WP (chk (sub (2 ^ w) (sp + i) (sp + j) (sp + l)) k) (Res K (sp + N) G (Lv w sp B N)) s :=
  st_num h hL hA r_any hi (subR hw (Nums.val h hi) (Nums.val h hj).rs (Nums.val h hl).rs) (fun _ ho => ho.any) hk
theorem nr_shl (hw : 0 < w) (h : At K (NumsR w sp A L) (sp + N) s) (hL : L.length = N) (hA : Le sp A B) (hi : i < N) (hj : j < N) {d : Nat}
    (hk : ∀ s', At K (NumsR w sp A (L.set i (L.getD j 0 * 2 ^ d))) (sp + N) s' → WP k (Res K (sp + N) G (Lv w sp B N)) s') :
    WP (chk (shl w (sp + i) (sp + j) d) k) (Res K (sp + N) G (Lv w sp B N)) s :=
  st_num h hL hA r_any hi (shlR hw (Nums.val h hi) (Nums.val h hj).rs d (by omega)) (fun _ ⟨_, ho⟩ => ho.any) hk
theorem nr_shr (hw : 0 < w) (h : At K (NumsR w sp A L) (sp + N) s) (hL : L.length = N) (hA : Le sp A B) (hi : i < N) (hj : j < N) {d : Nat}
    (hk : ∀ s', At K (NumsR w sp A (L.set i (Int.tdiv (L.getD j 0) ((2 ^ d : Nat) : Int)))) (sp + N) s' → WP k (Res K (sp + N) G (Lv w sp B N)) s') :
    WP (chk (shr w (sp + i) (sp + j) d) k) (Res K (sp + N) G (Lv w sp B N)) s :=
  st_num h hL hA r_any hi (shrR hw (Nums.val h hi) (Nums.val h hj).rs d (by omega)) (fun _ ho => ho.any) hk
theorem nr_shld (hw : 0 < w) (h : At K (NumsR w sp A L) (sp + N) s) (hL : L.length = N) (hA : Le sp A B) (hi : i < N) {d : Nat}
    (hk : ∀ s', At K (NumsR w sp A (L.set i (L.getD i 0 * ((2 ^ w) ^ d : Nat)))) (sp + N) s' → WP k (Res K (sp + N) G (Lv w sp B N)) s') :
    WP (chk (shld (sp + i) d) k) (Res K (sp + N) G (Lv w sp B N)) s :=
  st_num h hL hA r_any hi (shldR hw (Nums.val h hi) d) (fun _ ho => ho.any) hk
theorem nr_shrd (h : At K (NumsR w sp A L) (sp + N) s) (hL : L.length = N) (hA : Le sp A B) (hi : i < N) {d : Nat}
    (hk : ∀ s', At K (NumsR w sp A (L.set i (Int.tdiv (L.getD i 0) (((2 ^ w) ^ d : Nat) : Int)))) (sp + N) s' → WP k (Res K (sp + N) G (Lv w sp B N)) s') :
    WP (chk (shrd (sp + i) d) k) (Res K (sp + N) G (Lv w sp B N)) s :=
  st_num h hL hA r_any hi (shrdR (Nums.val h hi) d) (fun _ ho => ho.any) hk
theorem nr_mod (h : At K (NumsR w sp A L) (sp + N) s) (hL : L.length = N) (hA : Le sp A B) (hi : i < N) (hj : j < N) {d : Nat}
    (hk : ∀ s', At K (NumsR w sp A (L.set i (Int.tmod (L.getD j 0) (((2 ^ w) ^ d : Nat) : Int)))) (sp + N) s' → WP k (Res K (sp + N) G (Lv w sp B N)) s') :
    WP (chk (modDigits (sp + i) (sp + j) d) k) (Res K (sp + N) G (Lv w sp B N)) s :=
  st_num h hL hA r_any hi (modR (Nums.val h hi) (Nums.val h hj).rs d (by omega)) (fun _ ho => ho.any) hk
theorem nr_mod_arg (h : At K (NumsR w sp A L) (sp + N) s) (hL : L.length = N) (hA : Le sp A B) (hi : i < N) {d a : Nat} (ha : a < sp) {z : Int}
    (hz : ∀ o, A a o → RS w z o)
    (hk : ∀ s', At K (NumsR w sp A (L.set i (Int.tmod z (((2 ^ w) ^ d : Nat) : Int)))) (sp + N) s' → WP k (Res K (sp + N) G (Lv w sp B N)) s') :
    WP (chk (modDigits (sp + i) a d) k) (Res K (sp + N) G (Lv w sp B N)) s :=
  st_num h hL hA r_any hi (modR (Nums.val h hi) (hz _ (Nums.arg h ha)) d (by omega)) (fun _ ho => ho.any) hk
theorem nr_copy_arg (h : At K (NumsR w sp A L) (sp + N) s) (hL : L.length = N) (hA : Le sp A B) (hi : i < N) {a : Nat} (ha : a < sp) {z : Int}
    (hz : ∀ o, A a o → RS w z o)
    (hk : ∀ s', At K (NumsR w sp A (L.set i z)) (sp + N) s' → WP k (Res K (sp + N) G (Lv w sp B N)) s') :
    WP (chk (copy (sp + i) a) k) (Res K (sp + N) G (Lv w sp B N)) s :=
  st_num h hL hA r_any hi (copyR (Nums.val h hi) (hz _ (Nums.arg h ha))) (fun _ ho => ho.any) hk
theorem nr_div3 (hw : 2 ≤ w) (h : At K (NumsR w sp A L) (sp + N) s) (hL : L.length = N) (hA : Le sp A B) (hi : i < N)
    (hk : ∀ s', At K (NumsR w sp A (L.set i (Int.tdiv (L.getD i 0) 3))) (sp + N) s' → WP k (Res K (sp + N) G (Lv w sp B N)) s') :
    WP (chk (div3 w (sp + N) (sp + i)) k) (Res K (sp + N) G (Lv w sp B N)) s :=
  st_num h hL hA r_any hi (div3R hw (Nums.val h hi) (by omega)) (fun _ ho => ho.any) hk
theorem nr_mul {f : Nat} {mul : Nat → Nat → Nat → Nat → M Int} (hm : MulOn w f mul) (h : At K (NumsR w sp A L) (sp + N) s) (hL : L.length = N)
    (hA : Le sp A B) (hi : i < N) (hj : j < N) (hl : l < N)
    (hlt : (L.getD j 0).natAbs < (2 ^ w) ^ f ∨ (L.getD l 0).natAbs < (2 ^ w) ^ f)
    (hk : ∀ s', At K (NumsR w sp A (L.set i (L.getD j 0 * L.getD l 0))) (sp + N) s' → WP k (Res K (sp + N) G (Lv w sp B N)) s') :
    WP (chk (mulWith mul (sp + N) (sp + i) (sp + j) (sp + l)) k) (Res K (sp + N) G (Lv w sp B N)) s :=
  st_num h hL hA r_any hi ((mulWith_leaf hm (Nums.val h hi) (Nums.val h hj).rs (Nums.val h hl).rs (by omega) (by omega) (by omega) (Or.inl rfl) hlt).mono
    (fun _ ho => ho.r) (fun _ ho => ho)) (fun _ ⟨_, ho⟩ => ho.any) hk

end

end Verif.Mem
