import Verif.Model.LimgradNan
import Verif.Props.LimgradFl

/-!
# C146: the gradient limiter when sizes are NaN

A NaN in the first cell switches the limiter off without a word (the result is the input); a NaN anywhere else stays where
it is, and the guarantees of C106 hold between the cells that are numbers.
-/

set_option linter.unusedSectionVars false

namespace SM.LimgradNan

open SM.Limgrad (St findIndices nbrs NbIn Node InGrid Adjacent at3 lin exists_lin lin_lt mem_findIndices
  nbIn_nbrs nbrs_symm adjacent_nbrs nbrs_adjacent)
open SM.LimgradFl (Arith Rounded up thr)

variable {F : Type} [LinearOrder F] {O : Arith F}

/-! ### a NaN in the tolerance: nothing happens -/

theorem relax_off {elen dfdx ftol : Option F} (h : mul O elen dfdx = none ∨ ftol = none) (iter : ℤ) (s : St (Option F)) (a b : ℕ) :
    relax O elen dfdx ftol iter s a b = s := by
  have key : ∀ x y, lt (add O (add O x (mul O elen dfdx)) ftol) y = false := by
    intro x y
    rcases h with h | h
    · rw [h]; cases x <;> simp [add, lt]
    · rw [h]; cases x <;> cases mul O elen dfdx <;> simp [add, lt]
  unfold relax
  simp [key]

theorem sweep_off {elen dfdx ftol : Option F} (h : mul O elen dfdx = none ∨ ftol = none) (nb : ℕ → List ℕ) (iter : ℤ) (l : List ℕ)
    (s : St (Option F)) : sweep O elen dfdx ftol nb iter l s = s := by
  have hv : ∀ a, visit O elen dfdx ftol nb iter s a = s := by
    intro a
    unfold visit
    induction nb a with
    | nil => rfl
    | cons b l ih => rw [List.foldl_cons, relax_off h]; exact ih
  unfold sweep
  induction l with
  | nil => rfl
  | cons a l ih => rw [List.foldl_cons, hv]; exact ih

theorem loop_off {elen dfdx ftol : Option F} (h : mul O elen dfdx = none ∨ ftol = none) (nb : ℕ → List ℕ) (N : ℕ) :
    ∀ (n : ℕ) (iter : ℤ) (s : St (Option F)), (loop O elen dfdx ftol nb N n iter s).1 = s := by
  intro n
  induction n with
  | zero => intro iter s; rfl
  | succ n ih =>
    intro iter s
    unfold loop
    simp only []
    split
    · rfl
    · rw [ih, sweep_off h]

theorem min_none {N : ℕ} {f : ℕ → Option F} (h : f 0 = none) : minElement N f = none := by
  unfold minElement
  rw [h]
  induction List.range N with
  | nil => rfl
  | cons i l ih => rw [List.foldl_cons]; cases hi : f i <;> simpa [lt, hi] using ih

/-! ### the shape of a successful call -/

theorem enforce_ok {imax d0 d1 d2 : ℕ} {seps : F} {grade elen : Option F} {A R : ℕ → ℕ → ℕ → Option F} {c : Bool}
    (h : enforceGradation O imax d0 d1 d2 seps A grade elen = .ok (R, c)) :
    (grade = some O.zero ∧ R = A ∧ c = true) ∨ (grade ≠ some O.zero ∧ lt grade (some O.zero) = false ∧
      R = reshapeF d0 d1 (cLimgrad O d0 d1 d2 seps elen grade imax (flattenF d0 d1 A)).1 ∧
      c = (cLimgrad O d0 d1 d2 seps elen grade imax (flattenF d0 d1 A)).2) := by
  unfold enforceGradation at h
  split at h
  · injection h with h; injection h with h1 h2
    exact Or.inl ⟨by assumption, h1.symm, h2.symm⟩
  · split at h
    · simp at h
    · injection h with h; injection h with h1 h2
      refine Or.inr ⟨by assumption, by simpa using ‹¬ lt grade (some O.zero) = true›, h1.symm, h2.symm⟩

theorem flat_lin {d0 d1 : ℕ} {i j k : ℕ} (hi : i < d0) (hj : j < d1) (A : ℕ → ℕ → ℕ → Option F) :
    flattenF d0 d1 A (lin d0 d1 i j k) = A i j k := by
  have := SM.Limgrad.flatten_lin (d0 := d0) (d1 := d1) (k := k) hi hj A
  exact this

theorem reshape_at {d0 d1 : ℕ} (v : ℕ → Option F) (p : Node) : at3 (reshapeF d0 d1 v) p = v (lin d0 d1 p.1 p.2.1 p.2.2) := rfl

/-! ### the numbers are limited as if the NaN cells were not there -/

/-- The run `t` shows the values of the run `s` where the input is a number. -/
def Sim (A : ℕ → Option F) (t : St (Option F)) (s : St F) : Prop :=
  (∀ i, t.val i = (A i).map fun _ => s.val i) ∧ t.mark = s.mark

/-- The stencil without the NaN cells. -/
def nbOf (A : ℕ → Option F) (nb : ℕ → List ℕ) (a : ℕ) : List ℕ :=
  if (A a).isSome then (nb a).filter fun b => (A b).isSome else []

theorem mem_nbOf {A : ℕ → Option F} {nb : ℕ → List ℕ} {a b : ℕ} :
    b ∈ nbOf A nb a ↔ b ∈ nb a ∧ (A a).isSome ∧ (A b).isSome := by
  unfold nbOf
  split <;> simp_all

theorem relax_skip {A : ℕ → Option F} {e g f : Option F} {iter : ℤ} {t : St (Option F)} {s : St F} (h : Sim A t s) {a b : ℕ}
    (hab : A a = none ∨ A b = none) : relax O e g f iter t a b = t := by
  have hn : t.val a = none ∨ t.val b = none := by
    rcases hab with h' | h'
    · left; rw [h.1, h']; rfl
    · right; rw [h.1, h']; rfl
  unfold relax
  rcases hn with hn | hn <;> rw [hn]
  · cases t.val b <;> simp [lt, add]
  · cases t.val a <;> simp [lt, add]

theorem relax_sim {A : ℕ → Option F} {e g f : F} {iter : ℤ} {t : St (Option F)} {s : St F} (h : Sim A t s) {a b : ℕ}
    (ha : (A a).isSome) (hb : (A b).isSome) :
    Sim A (relax O (some e) (some g) (some f) iter t a b) (LimgradFl.relax O e g f iter s a b) := by
  obtain ⟨xa, hxa⟩ := Option.isSome_iff_exists.1 ha
  obtain ⟨xb, hxb⟩ := Option.isSome_iff_exists.1 hb
  have hva : t.val a = some (s.val a) := by rw [h.1, hxa]; rfl
  have hvb : t.val b = some (s.val b) := by rw [h.1, hxb]; rfl
  have hupd : ∀ (c : ℕ) (x : F), (A c).isSome → Sim A
      { val := Function.update t.val c (some x), mark := Function.update t.mark c iter }
      { val := Function.update s.val c x, mark := Function.update s.mark c iter } := by
    intro c x hc
    refine ⟨fun i => ?_, by simp only []; rw [h.2]⟩
    by_cases hi : i = c
    · subst hi
      obtain ⟨y, hy⟩ := Option.isSome_iff_exists.1 hc
      simp [hy]
    · simp only [Function.update_of_ne hi]; exact h.1 i
  unfold relax LimgradFl.relax
  simp only [hva, hvb, lt, add, mul, decide_eq_true_eq, gt_iff_lt]
  split
  · split
    · exact hupd a _ ha
    · exact h
  · split
    · exact hupd b _ hb
    · exact h

theorem visit_sim {A : ℕ → Option F} {e g f : F} {nb : ℕ → List ℕ} {iter : ℤ} {t : St (Option F)} {s : St F} (h : Sim A t s) (a : ℕ) :
    Sim A (visit O (some e) (some g) (some f) nb iter t a) (LimgradFl.visit O e g f (nbOf A nb) iter s a) := by
  unfold visit LimgradFl.visit nbOf
  by_cases ha : (A a).isSome
  · rw [if_pos ha]
    induction nb a generalizing t s with
    | nil => exact h
    | cons b l ih =>
      by_cases hb : (A b).isSome
      · rw [List.foldl_cons, List.filter_cons, if_pos hb, List.foldl_cons]
        exact ih (relax_sim h ha hb)
      · rw [List.foldl_cons, List.filter_cons, if_neg hb, relax_skip h (Or.inr (by simpa using hb))]
        exact ih h
  · rw [if_neg ha]
    have hn : A a = none := by simpa using ha
    simp only [List.foldl_nil]
    induction nb a with
    | nil => exact h
    | cons b l ih => rw [List.foldl_cons, relax_skip h (Or.inl hn)]; exact ih

theorem sweep_sim {A : ℕ → Option F} {e g f : F} {nb : ℕ → List ℕ} {iter : ℤ} (l : List ℕ) :
    ∀ {t : St (Option F)} {s : St F}, Sim A t s →
    Sim A (sweep O (some e) (some g) (some f) nb iter l t) (LimgradFl.sweep O e g f (nbOf A nb) iter l s) := by
  induction l with
  | nil => intro t s h; exact h
  | cons a l ih => intro t s h; exact ih (visit_sim h a)

theorem loop_sim {A : ℕ → Option F} {e g f : F} {nb : ℕ → List ℕ} {N : ℕ} :
    ∀ (n : ℕ) (iter : ℤ) {t : St (Option F)} {s : St F}, Sim A t s →
    Sim A (loop O (some e) (some g) (some f) nb N n iter t).1 (LimgradFl.loop O e g f (nbOf A nb) N n iter s).1 ∧
    (loop O (some e) (some g) (some f) nb N n iter t).2 = (LimgradFl.loop O e g f (nbOf A nb) N n iter s).2 := by
  intro n
  induction n with
  | zero => intro iter t s h; exact ⟨h, rfl⟩
  | succ n ih =>
    intro iter t s h
    unfold loop LimgradFl.loop
    simp only [h.2]
    split
    · exact ⟨h, rfl⟩
    · exact ih _ (sweep_sim _ h)

/-- `m` is the smallest of the cells that are numbers. -/
def IsMinNum (d0 d1 d2 : ℕ) (A : ℕ → ℕ → ℕ → Option F) (m : F) : Prop :=
  (∀ p, InGrid d0 d1 d2 p → ∀ x, at3 A p = some x → m ≤ x) ∧ ∃ p, InGrid d0 d1 d2 p ∧ at3 A p = some m

theorem min_some {N : ℕ} {f : ℕ → Option F} {x0 : F} (hN : 0 < N) (h : f 0 = some x0) :
    ∃ m, minElement N f = some m ∧ (∃ i < N, f i = some m) ∧ ∀ i < N, ∀ x, f i = some x → m ≤ x := by
  have key : ∀ (l : List ℕ) (m0 : F), (∃ i < N, f i = some m0) → (∀ i ∈ l, i < N) →
      ∃ m, l.foldl (fun m i => if lt (f i) m then f i else m) (some m0) = some m ∧ (∃ i < N, f i = some m) ∧ m ≤ m0 ∧
        ∀ i ∈ l, ∀ x, f i = some x → m ≤ x := by
    intro l
    induction l with
    | nil => intro m0 h0 _; exact ⟨m0, rfl, h0, le_rfl, by simp⟩
    | cons i l ih =>
      intro m0 h0 hl
      have hl' : ∀ j ∈ l, j < N := fun j hj => hl j (List.mem_cons_of_mem _ hj)
      rw [List.foldl_cons]
      cases hi : f i with
      | none =>
        obtain ⟨m, h1, h2, h3, h4⟩ := ih m0 h0 hl'
        refine ⟨m, by simpa [lt] using h1, h2, h3, fun j hj x hx => ?_⟩
        rcases List.mem_cons.1 hj with rfl | hj
        · rw [hi] at hx; simp at hx
        · exact h4 j hj x hx
      | some y =>
        by_cases hy : y < m0
        · obtain ⟨m, h1, h2, h3, h4⟩ := ih y ⟨i, hl i (by simp), hi⟩ hl'
          refine ⟨m, by simpa [lt, hy] using h1, h2, h3.trans hy.le, fun j hj x hx => ?_⟩
          rcases List.mem_cons.1 hj with rfl | hj
          · rw [hi] at hx; injection hx with hx; subst hx; exact h3
          · exact h4 j hj x hx
        · obtain ⟨m, h1, h2, h3, h4⟩ := ih m0 h0 hl'
          refine ⟨m, by simpa [lt, hy] using h1, h2, h3, fun j hj x hx => ?_⟩
          rcases List.mem_cons.1 hj with rfl | hj
          · rw [hi] at hx; injection hx with hx; subst hx; exact h3.trans (not_lt.1 hy)
          · exact h4 j hj x hx
  obtain ⟨m, h1, h2, -, h4⟩ := key (List.range N) x0 ⟨0, hN, h⟩ (fun i hi => List.mem_range.1 hi)
  exact ⟨m, by unfold minElement; rw [h]; exact h1, h2, fun i hi => h4 i (List.mem_range.2 hi)⟩

theorem flat_min {d0 d1 d2 : ℕ} {A : ℕ → ℕ → ℕ → Option F} {m : F} (hm : IsMinNum d0 d1 d2 A m)
    (h0 : at3 A (0, 0, 0) ≠ none) : minElement (d0 * d1 * d2) (flattenF d0 d1 A) = some m := by
  obtain ⟨q, hq, hqm⟩ := hm.2
  obtain ⟨x0, hx0⟩ := Option.ne_none_iff_exists'.1 h0
  have hN : 0 < d0 * d1 * d2 := Nat.mul_pos (Nat.mul_pos (by have := hq.1; omega) (by have := hq.2.1; omega)) (by have := hq.2.2; omega)
  have hf0 : flattenF d0 d1 A 0 = some x0 := by simpa [flattenF, at3] using hx0
  obtain ⟨m', h1, ⟨i, hiN, h2⟩, h3⟩ := min_some hN hf0
  rw [h1]
  congr 1
  apply le_antisymm
  · refine h3 _ (lin_lt hq.1 hq.2.1 hq.2.2) m ?_
    rw [flat_lin hq.1 hq.2.1]; exact hqm
  · obtain ⟨i, j, k, hi, hj, hk, rfl⟩ := exists_lin hiN
    rw [flat_lin hi hj] at h2
    exact hm.1 (i, j, k) ⟨hi, hj, hk⟩ m' h2

theorem init_sim (v : ℕ → Option F) (z : F) : Sim v { val := v, mark := fun _ => -1 } { val := fun i => (v i).getD z, mark := fun _ => -1 } := by
  refine ⟨fun i => ?_, rfl⟩
  cases h : v i <;> simp [h]

/-- What a call with a positive gradation and a number in the first cell computes. -/
theorem run {imax d0 d1 d2 : ℕ} {seps g e m : F} {A R : ℕ → ℕ → ℕ → Option F} {c : Bool} (hm : IsMinNum d0 d1 d2 A m)
    (h0 : at3 A (0, 0, 0) ≠ none) (hg : g ≠ O.zero)
    (h : enforceGradation O imax d0 d1 d2 seps A (some g) (some e) = .ok (R, c)) :
    O.zero < g ∧ (∀ p, at3 R p = (flattenF d0 d1 A (lin d0 d1 p.1 p.2.1 p.2.2)).map fun _ =>
      (LimgradFl.loop O e g (O.mul m seps) (nbOf (flattenF d0 d1 A) (nbrs d0 d1 d2)) (d0 * d1 * d2) imax 0
        { val := fun i => (flattenF d0 d1 A i).getD m, mark := fun _ => -1 }).1.val (lin d0 d1 p.1 p.2.1 p.2.2)) ∧
      c = (LimgradFl.loop O e g (O.mul m seps) (nbOf (flattenF d0 d1 A) (nbrs d0 d1 d2)) (d0 * d1 * d2) imax 0
        { val := fun i => (flattenF d0 d1 A i).getD m, mark := fun _ => -1 }).2 := by
  rcases enforce_ok h with ⟨h1, -⟩ | ⟨-, hlt, rfl, rfl⟩
  · injection h1 with h1; exact absurd h1 hg
  · have hgpos : O.zero < g := by
      have : ¬ g < O.zero := by simpa [lt] using hlt
      exact lt_of_le_of_ne (not_lt.1 this) (Ne.symm hg)
    have key := loop_sim (O := O) (A := flattenF d0 d1 A) (e := e) (g := g) (f := O.mul m seps) (nb := nbrs d0 d1 d2)
      (N := d0 * d1 * d2) imax 0 (init_sim (flattenF d0 d1 A) m)
    refine ⟨hgpos, fun p => ?_, ?_⟩
    · rw [reshape_at]
      unfold cLimgrad
      simp only [flat_min hm h0, mul]
      exact key.1.1 _
    · unfold cLimgrad
      simp only [flat_min hm h0, mul]
      exact key.2

theorem nbOf_in (A : ℕ → Option F) (d0 d1 d2 : ℕ) : NbIn (nbOf A (nbrs d0 d1 d2)) (d0 * d1 * d2) :=
  fun a ha b hb => nbIn_nbrs d0 d1 d2 a ha b (mem_nbOf.1 hb).1

theorem nbOf_symm (A : ℕ → Option F) (d0 d1 d2 : ℕ) :
    ∀ a < d0 * d1 * d2, ∀ b ∈ nbOf A (nbrs d0 d1 d2) a, a ∈ nbOf A (nbrs d0 d1 d2) b := by
  intro a ha b hb
  obtain ⟨h1, h2, h3⟩ := mem_nbOf.1 hb
  exact mem_nbOf.2 ⟨nbrs_symm d0 d1 d2 a ha b h1, h3, h2⟩

/-- **C146 (switched off).** If the first cell, the gradation or the element length is NaN, the call changes nothing. -/
theorem C146_switched_off {imax d0 d1 d2 : ℕ} {seps : F} {grade elen : Option F} {A R : ℕ → ℕ → ℕ → Option F} {c : Bool}
    (hn : at3 A (0, 0, 0) = none ∨ grade = none ∨ elen = none)
    (h : enforceGradation O imax d0 d1 d2 seps A grade elen = .ok (R, c)) :
    ∀ p, InGrid d0 d1 d2 p → at3 R p = at3 A p := by
  rintro ⟨i, j, k⟩ ⟨hi, hj, hk⟩
  rcases enforce_ok h with ⟨-, rfl, -⟩ | ⟨-, -, rfl, -⟩
  · rfl
  · rw [reshape_at]
    unfold cLimgrad
    simp only []
    rw [loop_off]
    · exact flat_lin hi hj A
    · rcases hn with hn | rfl | rfl
      · right
        rw [min_none (by simpa [flattenF, at3] using hn)]
        rfl
      · left; cases elen <;> rfl
      · left; rfl

/-- **C146 (a NaN gradation is accepted).** Only a negative number is refused. -/
theorem C146_errors (imax d0 d1 d2 : ℕ) (seps : F) (A : ℕ → ℕ → ℕ → Option F) (grade elen : Option F) (err) :
    enforceGradation O imax d0 d1 d2 seps A grade elen = .error err ↔
      err = .gradeNegative ∧ ∃ g, grade = some g ∧ g < O.zero := by
  unfold enforceGradation
  by_cases h1 : grade = some O.zero
  · subst h1; simp
  · rw [if_neg h1]
    cases grade with
    | none => simp [lt]
    | some g =>
      by_cases h2 : g < O.zero
      · simp [lt, h2, eq_comm]
      · simp [lt, h2]

/-- **C146 (isolation).** The cells that are NaN in the result are those that are NaN in the input. -/
theorem C146_isolated {imax d0 d1 d2 : ℕ} {seps : F} {grade elen : Option F} {A R : ℕ → ℕ → ℕ → Option F} {c : Bool}
    (h : enforceGradation O imax d0 d1 d2 seps A grade elen = .ok (R, c)) :
    ∀ p, InGrid d0 d1 d2 p → (at3 R p = none ↔ at3 A p = none) := by
  intro p hp
  by_cases hn : at3 A (0, 0, 0) = none ∨ grade = none ∨ elen = none
  · rw [C146_switched_off hn h p hp]
  · push Not at hn
    obtain ⟨g, rfl⟩ := Option.ne_none_iff_exists'.1 hn.2.1
    obtain ⟨e, rfl⟩ := Option.ne_none_iff_exists'.1 hn.2.2
    by_cases hg : g = O.zero
    · subst hg
      rcases enforce_ok h with ⟨-, rfl, -⟩ | ⟨h1, -⟩
      · exact Iff.rfl
      · exact absurd rfl h1
    · obtain ⟨x0, hx0⟩ := Option.ne_none_iff_exists'.1 hn.1
      have hN : 0 < d0 * d1 * d2 := Nat.mul_pos (Nat.mul_pos (by have := hp.1; omega) (by have := hp.2.1; omega)) (by have := hp.2.2; omega)
      obtain ⟨m, -, ⟨i, hiN, h2⟩, h3⟩ := min_some (f := flattenF d0 d1 A) (x0 := x0) hN (by simpa [flattenF, at3] using hx0)
      have hm : IsMinNum d0 d1 d2 A m := by
        refine ⟨fun q hq x hx => h3 _ (lin_lt hq.1 hq.2.1 hq.2.2) x ?_, ?_⟩
        · rw [flat_lin hq.1 hq.2.1]; exact hx
        · obtain ⟨i, j, k, hi, hj, hk, rfl⟩ := exists_lin hiN
          rw [flat_lin hi hj] at h2
          exact ⟨(i, j, k), ⟨hi, hj, hk⟩, h2⟩
      rw [(run hm hn.1 hg h).2.1 p, Option.map_eq_none_iff, flat_lin hp.1 hp.2.1]
      exact Iff.rfl

/-- **C146 (numbers).** When the first cell is a number, each cell that is a number keeps a number between the smallest
requested size and its own. -/
theorem C146_only_refines (hO : Rounded O) {imax d0 d1 d2 : ℕ} {seps g e m : F} {A R : ℕ → ℕ → ℕ → Option F} {c : Bool}
    (hs : O.zero ≤ seps) (he : O.zero ≤ e) (hm : IsMinNum d0 d1 d2 A m) (hm0 : O.zero ≤ m) (h0 : at3 A (0, 0, 0) ≠ none)
    (h : enforceGradation O imax d0 d1 d2 seps A (some g) (some e) = .ok (R, c)) :
    ∀ p, InGrid d0 d1 d2 p → ∀ a, at3 A p = some a → ∃ x, at3 R p = some x ∧ m ≤ x ∧ x ≤ a := by
  intro p hp a ha
  by_cases hg : g = O.zero
  · subst hg
    rcases enforce_ok h with ⟨-, rfl, -⟩ | ⟨h1, -⟩
    · exact ⟨a, ha, hm.1 p hp a ha, le_rfl⟩
    · exact absurd rfl h1
  · obtain ⟨hgp, hR, -⟩ := run hm h0 hg h
    have hst := hO.mul_nonneg _ _ he hgp.le
    have hft := hO.mul_nonneg _ _ hm0 hs
    have hfa : flattenF d0 d1 A (lin d0 d1 p.1 p.2.1 p.2.2) = some a := by rw [flat_lin hp.1 hp.2.1]; exact ha
    refine ⟨_, by rw [hR p, hfa]; rfl, ?_, ?_⟩
    · refine LimgradFl.loop_ge hO (nbOf_in _ d0 d1 d2) (fun _ => m) ?_ imax 0 _ ?_ _ (lin_lt hp.1 hp.2.1 hp.2.2)
      · intro a _ b _
        exact ⟨LimgradFl.le_up hO hst m, LimgradFl.le_up hO hst m⟩
      · intro n hn
        obtain ⟨i, j, k, hi, hj, hk, rfl⟩ := exists_lin hn
        simp only [flat_lin hi hj]
        cases hx : A i j k with
        | none => simp
        | some x => exact hm.1 (i, j, k) ⟨hi, hj, hk⟩ x hx
    · refine (LimgradFl.loop_le hO hft imax 0 _ _).trans ?_
      simp [hfa]

/-- **C146 (gradation, partial).** When the first cell is a number and the sweeps ended before the cap, adjacent cells that
are both numbers are within the gradation. Missing: the first cell is NaN (`C146_witness`). -/
theorem C146_bound_partial (hO : Rounded O) {imax d0 d1 d2 : ℕ} {seps g e m : F} {A R : ℕ → ℕ → ℕ → Option F}
    (hs : O.zero ≤ seps) (he : O.zero ≤ e) (hm : IsMinNum d0 d1 d2 A m) (hm0 : O.zero ≤ m) (h0 : at3 A (0, 0, 0) ≠ none)
    (hg : g ≠ O.zero) (h : enforceGradation O imax d0 d1 d2 seps A (some g) (some e) = .ok (R, true)) :
    ∀ p q, InGrid d0 d1 d2 p → InGrid d0 d1 d2 q → Adjacent p q → ∀ x y, at3 R p = some x → at3 R q = some y →
      x ≤ O.add (O.add y (O.mul e g)) (O.mul m seps) := by
  obtain ⟨hgp, hR, hc⟩ := run hm h0 hg h
  have hst := hO.mul_nonneg _ _ he hgp.le
  have hft := hO.mul_nonneg _ _ hm0 hs
  intro p q hp hq hpq x y hx hy
  rw [hR p] at hx
  rw [hR q] at hy
  obtain ⟨a, ha, rfl⟩ := Option.map_eq_some_iff.1 hx
  obtain ⟨b, hb, rfl⟩ := Option.map_eq_some_iff.1 hy
  refine LimgradFl.loop_conv hO hst hft (nbOf_in _ d0 d1 d2) (nbOf_symm _ d0 d1 d2) imax 0 _ ?_ hc.symm _
    (lin_lt hp.1 hp.2.1 hp.2.2) _ (mem_nbOf.2 ⟨adjacent_nbrs hp hq hpq, by rw [ha]; rfl, by rw [hb]; rfl⟩)
  intro a _ b _ _
  right; right; left; rfl

/-- **C146 (not finer than needed).** Any graded field below the request, on the cells that are numbers, is below the
result: a NaN does not pull its neighbours down. -/
theorem C146_never_over_refines (hO : Rounded O) {imax d0 d1 d2 : ℕ} {seps g e m : F} {A R : ℕ → ℕ → ℕ → Option F} {c : Bool}
    {G : ℕ → ℕ → ℕ → F} (he : O.zero ≤ e) (hm : IsMinNum d0 d1 d2 A m) (h0 : at3 A (0, 0, 0) ≠ none)
    (h : enforceGradation O imax d0 d1 d2 seps A (some g) (some e) = .ok (R, c))
    (hGA : ∀ p, InGrid d0 d1 d2 p → ∀ a, at3 A p = some a → at3 G p ≤ a)
    (hG : ∀ p q, InGrid d0 d1 d2 p → InGrid d0 d1 d2 q → Adjacent p q → at3 A p ≠ none → at3 A q ≠ none →
      at3 G p ≤ O.add (at3 G q) (O.mul e g)) :
    ∀ p, InGrid d0 d1 d2 p → ∀ x, at3 R p = some x → at3 G p ≤ x := by
  intro p hp x hx
  by_cases hg : g = O.zero
  · subst hg
    rcases enforce_ok h with ⟨-, rfl, -⟩ | ⟨h1, -⟩
    · exact hGA p hp x hx
    · exact absurd rfl h1
  · obtain ⟨hgp, hR, -⟩ := run hm h0 hg h
    have hst := hO.mul_nonneg _ _ he hgp.le
    rw [hR p] at hx
    obtain ⟨a, ha, rfl⟩ := Option.map_eq_some_iff.1 hx
    let gg : ℕ → F := fun n => match flattenF d0 d1 A n with
      | none => m
      | some _ => G (n % d0) (n / d0 % d1) (n / (d0 * d1))
    have hgg : ∀ p : Node, InGrid d0 d1 d2 p → at3 A p ≠ none → gg (lin d0 d1 p.1 p.2.1 p.2.2) = at3 G p := by
      intro p hp hne
      obtain ⟨y, hy⟩ := Option.ne_none_iff_exists'.1 hne
      have : flattenF d0 d1 A (lin d0 d1 p.1 p.2.1 p.2.2) = some y := by rw [flat_lin hp.1 hp.2.1]; exact hy
      simp only [gg, this]
      exact SM.Limgrad.flatten_lin hp.1 hp.2.1 G
    have hap : at3 A p ≠ none := by
      rw [flat_lin hp.1 hp.2.1] at ha
      simp [at3, ha]
    rw [← hgg p hp hap]
    refine LimgradFl.loop_ge hO (nbOf_in _ d0 d1 d2) gg ?_ imax 0 _ ?_ _ (lin_lt hp.1 hp.2.1 hp.2.2)
    · intro a ha b hb
      obtain ⟨h1, h2, h3⟩ := mem_nbOf.1 hb
      obtain ⟨i, j, k, hi, hj, hk, rfl⟩ := exists_lin ha
      obtain ⟨q, hq, rfl, rfl | hadj⟩ := nbrs_adjacent (p := (i, j, k)) ⟨hi, hj, hk⟩ h1
      · exact ⟨LimgradFl.le_up hO hst _, LimgradFl.le_up hO hst _⟩
      · rw [flat_lin hi hj] at h2
        rw [flat_lin hq.1 hq.2.1] at h3
        have n1 : at3 A (i, j, k) ≠ none := by intro e; simp [at3] at e; simp [e] at h2
        have n2 : at3 A q ≠ none := by intro e; simp [at3] at e; simp [e] at h3
        have e1 := hgg (i, j, k) ⟨hi, hj, hk⟩ n1
        have e2 := hgg q hq n2
        simp only [] at e1
        rw [e1, e2]
        exact ⟨hG _ _ ⟨hi, hj, hk⟩ hq hadj n1 n2, hG _ _ hq ⟨hi, hj, hk⟩ hadj.symm n2 n1⟩
    · intro n hn
      obtain ⟨i, j, k, hi, hj, hk, rfl⟩ := exists_lin hn
      cases hx : A i j k with
      | none => simp [gg, flat_lin hi hj, hx]
      | some x =>
        have := hgg (i, j, k) ⟨hi, hj, hk⟩ (by simp [at3, hx])
        simp only [] at this
        rw [this]
        simp only [flat_lin hi hj, hx, Option.getD_some]
        exact hGA (i, j, k) ⟨hi, hj, hk⟩ x hx

/-! ### the witness, with exact arithmetic on integers -/

/-- Exact integers. -/
def intArith : Arith ℤ := ⟨0, (· + ·), (· * ·)⟩

theorem intArith_rounded : Rounded intArith :=
  ⟨fun x t h => le_add_of_nonneg_right h, fun x y t h => by change x + t ≤ y + t; omega, fun x y h1 h2 => mul_nonneg h1 h2⟩

/-- A row of three sizes. -/
def row (a b c : Option ℤ) : ℕ → ℕ → ℕ → Option ℤ := fun i _ _ => if i = 0 then a else if i = 1 then b else c

/-- **C146 (the claim fails).** Sizes NaN, 1, 100 and gradation 1: the sweeps end at once, and 1 and 100 stay side by side.
With the same sizes in the order 1, 100, NaN the second becomes 2. -/
theorem C146_witness :
    (∃ R, enforceGradation intArith 10000 3 1 1 0 (row none (some 1) (some 100)) (some 1) (some 1) = .ok (R, true) ∧
      at3 R (1, 0, 0) = some 1 ∧ at3 R (2, 0, 0) = some 100) ∧
    (∃ R, enforceGradation intArith 10000 3 1 1 0 (row (some 1) (some 100) none) (some 1) (some 1) = .ok (R, true) ∧
      at3 R (0, 0, 0) = some 1 ∧ at3 R (1, 0, 0) = some 2 ∧ at3 R (2, 0, 0) = none) := by
  constructor
  · exact ⟨_, by
      unfold enforceGradation
      rw [if_neg (by decide), if_neg (by decide)]
      simp only [Except.ok.injEq, Prod.mk.injEq]
      exact ⟨rfl, by decide +kernel⟩, by decide +kernel, by decide +kernel⟩
  · exact ⟨_, by
      unfold enforceGradation
      rw [if_neg (by decide), if_neg (by decide)]
      simp only [Except.ok.injEq, Prod.mk.injEq]
      exact ⟨rfl, by decide +kernel⟩, by decide +kernel, by decide +kernel, by decide +kernel⟩

/-- The hypotheses are met: sizes 1, 100, NaN. -/
example : IsMinNum 3 1 1 (row (some 1) (some 100) none) 1 ∧ at3 (row (some 1) (some 100) none) (0, 0, 0) ≠ none := by
  refine ⟨⟨?_, (0, 0, 0), ⟨by decide, by decide, by decide⟩, rfl⟩, by decide⟩
  rintro ⟨i, j, k⟩ - x hx
  simp only [at3, row] at hx
  split_ifs at hx <;> simp_all <;> omega

end SM.LimgradNan
