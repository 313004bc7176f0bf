import Verif.Model.InterpNan
import Verif.Props.InterpFl

/-!
# C147: evaluation of a sizing function that contains NaN
-/

set_option linter.unusedSectionVars false

namespace SM.InterpNan

open Interp

variable {K : Type} [Field K] [LinearOrder K] [IsStrictOrderedRing K] {rnd : K → K}

/-- The cell `is` of the grid is the one that belongs to the point `xs`: the half-open box, and beyond the ends of a grid vector
the first or last interval. -/
def OwnCell : List (Axis K) → List ℕ → List K → Prop
  | [], [], [] => True
  | a :: as, i :: is, x :: xs => i + 1 < a.n ∧ (i = 0 ∨ a.node i ≤ x) ∧ (i + 2 = a.n ∨ x < a.node (i + 1)) ∧ OwnCell as is xs
  | _, _, _ => False

theorem cellIdx_eq {a : Axis K} (hg : a.Good) {i : ℕ} {x : K} (h1 : i + 1 < a.n) (h2 : i = 0 ∨ a.node i ≤ x) (h3 : i + 2 = a.n ∨ x < a.node (i + 1)) :
    cellIdx a x = i := by
  have hmono : ∀ i j, i ≤ j → a.node i ≤ a.node j := by
    intro i j h
    rcases Nat.lt_or_eq_of_le h with h | rfl
    · exact (hg.2 _ _ h).le
    · exact le_rfl
  have key : ∀ n, i ≤ n → (n = i ∨ x < a.node (i + 1)) → search a.node x n = i := by
    intro n
    induction n with
    | zero => intro hi _; obtain rfl : i = 0 := by omega
              rfl
    | succ n ih =>
      intro hi hn
      unfold search
      rcases Nat.lt_or_ge n i with h | h
      · obtain rfl : i = n + 1 := by omega
        rcases h2 with h2 | h2
        · omega
        · rw [if_pos h2]
      · rcases hn with hn | hn
        · omega
        · rw [if_neg (not_le.2 (hn.trans_le (hmono _ _ (by omega))))]
          exact ih h (Or.inr hn)
  refine key _ (by omega) ?_
  rcases h3 with h3 | h3
  · left; omega
  · exact Or.inr h3

theorem cellIdx_own {a : Axis K} (hg : a.Good) (x : K) :
    cellIdx a x + 1 < a.n ∧ (cellIdx a x = 0 ∨ a.node (cellIdx a x) ≤ x) ∧ (cellIdx a x + 2 = a.n ∨ x < a.node (cellIdx a x + 1)) := by
  have key : ∀ n, search a.node x n ≤ n ∧ (search a.node x n = 0 ∨ a.node (search a.node x n) ≤ x) ∧
      (search a.node x n = n ∨ x < a.node (search a.node x n + 1)) := by
    intro n
    induction n with
    | zero => exact ⟨le_rfl, Or.inl rfl, Or.inl rfl⟩
    | succ n ih =>
      unfold search
      split_ifs with h
      · exact ⟨le_rfl, Or.inr h, Or.inl rfl⟩
      · refine ⟨by omega, ih.2.1, Or.inr ?_⟩
        rcases ih.2.2 with h' | h'
        · rw [h']; exact not_le.1 h
        · exact h'
  obtain ⟨h1, h2, h3⟩ := key (a.n - 2)
  have := hg.1
  unfold cellIdx
  refine ⟨by omega, h2, ?_⟩
  rcases h3 with h3 | h3
  · left; omega
  · exact Or.inr h3

/-- **C147 (the cell).** Every point, inside the grid or not, belongs to exactly one cell. -/
theorem C147_cell : ∀ (as : List (Axis K)) (_ : ∀ a ∈ as, a.Good) (xs : List K) (_ : xs.length = as.length), ∃! is, OwnCell as is xs
  | [], _, [], _ => ⟨[], trivial, fun is h => by cases is <;> simp_all [OwnCell]⟩
  | a :: as, hg, x :: xs, hl => by
    obtain ⟨is, h1, h2⟩ := C147_cell as (fun b hb => hg b (by simp [hb])) xs (by simpa using hl)
    have ho := cellIdx_own (hg a (by simp)) x
    refine ⟨cellIdx a x :: is, ⟨ho.1, ho.2.1, ho.2.2, h1⟩, fun js h => ?_⟩
    match js, h with
    | [], h => exact h.elim
    | j :: js, ⟨e1, e2, e3, e4⟩ => rw [cellIdx_eq (hg a (by simp)) e1 e2 e3, h2 js e4]
  | [], _, _ :: _, hl => by simp at hl
  | _ :: _, _, [], hl => by simp at hl

theorem terms_none : ∀ (as : List (Axis K)), (∀ a ∈ as, a.Good) → ∀ (is : List ℕ) (xs : List K), OwnCell as is xs → ∀ (w : K) (A : List ℕ → Option K),
    none ∈ terms rnd as w A xs ↔ ∃ js, Corner is js ∧ A js = none
  | [], _, [], [], _, w, A => by
    simp only [terms, List.mem_singleton]
    constructor
    · intro h; exact ⟨[], trivial, Option.map_eq_none_iff.1 h.symm⟩
    · rintro ⟨js, hj, h⟩
      cases js with
      | nil => rw [h]; rfl
      | cons j js => exact hj.elim
  | a :: as, hg, i :: is, x :: xs, ⟨h1, h2, h3, h4⟩, w, A => by
    have ih := terms_none as (fun b hb => hg b (by simp [hb])) is xs h4
    simp only [terms, List.mem_append, ih, cellIdx_eq (hg a (by simp)) h1 h2 h3]
    constructor
    · rintro (⟨js, hj, h⟩ | ⟨js, hj, h⟩)
      · exact ⟨i :: js, ⟨Or.inl rfl, hj⟩, h⟩
      · exact ⟨(i + 1) :: js, ⟨Or.inr rfl, hj⟩, h⟩
    · rintro ⟨js, hj, h⟩
      match js, hj with
      | j :: js, ⟨hj1, hj2⟩ =>
        rcases hj1 with rfl | rfl
        · exact Or.inl ⟨js, hj2, h⟩
        · exact Or.inr ⟨js, hj2, h⟩

theorem fold_none (l : List (Option K)) : ∀ s : Option K, l.foldl (add rnd) s = none ↔ s = none ∨ none ∈ l := by
  induction l with
  | nil => intro s; simp
  | cons y l ih =>
    intro s
    rw [List.foldl_cons, ih]
    cases s <;> cases y <;> simp [add]

/-- **C147 (where).** The sizing function is NaN at a point exactly when one of the corners of the cell of the point is, whatever the weight of that corner. -/
theorem C147_nan {as : List (Axis K)} (hg : ∀ a ∈ as, a.Good) {is : List ℕ} {xs : List K} (hc : OwnCell as is xs) (A : List ℕ → Option K) :
    interp rnd as A xs = none ↔ ∃ js, Corner is js ∧ A js = none := by
  unfold interp
  rw [fold_none, terms_none as hg is xs hc]
  simp

theorem terms_some : ∀ (as : List (Axis K)), (∀ a ∈ as, a.Good) → ∀ (is : List ℕ) (xs : List K), OwnCell as is xs → ∀ (w : K) (A : List ℕ → Option K) (B : List ℕ → K),
    (∀ js, Corner is js → A js = some (B js)) → terms rnd as w A xs = (InterpFl.terms rnd as w B xs).map some
  | [], _, [], [], _, w, A, B, h => by simp [terms, InterpFl.terms, h [] trivial]
  | a :: as, hg, i :: is, x :: xs, ⟨h1, h2, h3, h4⟩, w, A, B, h => by
    simp only [terms, InterpFl.terms, cellIdx_eq (hg a (by simp)) h1 h2 h3, List.map_append]
    congr 1
    · exact terms_some as (fun b hb => hg b (by simp [hb])) is xs h4 _ _ (fun js => B (i :: js)) fun js hj => h _ ⟨Or.inl rfl, hj⟩
    · exact terms_some as (fun b hb => hg b (by simp [hb])) is xs h4 _ _ (fun js => B ((i + 1) :: js)) fun js hj => h _ ⟨Or.inr rfl, hj⟩

theorem fold_some (l : List K) : ∀ s : K, (l.map some).foldl (add rnd) (some s) = some (l.foldl (fun s y => rnd (s + y)) s) := by
  induction l with
  | nil => intro s; rfl
  | cons y l ih => intro s; exact ih _

/-- **C147 (elsewhere).** When the corners of the cell are numbers, the value is the number that the array with any numbers in
place of the NaN entries gives: the guarantees of C141 apply. -/
theorem C147_elsewhere {as : List (Axis K)} (hg : ∀ a ∈ as, a.Good) {is : List ℕ} {xs : List K} (hc : OwnCell as is xs) {A : List ℕ → Option K}
    {B : List ℕ → K} (h : ∀ js, Corner is js → A js = some (B js)) : interp rnd as A xs = some (InterpFl.interp rnd as B xs) := by
  unfold interp InterpFl.interp
  rw [terms_some as hg is xs hc 1 A B h, fold_some]

theorem corner_self : ∀ js : List ℕ, Corner js js
  | [] => trivial
  | _ :: js => ⟨Or.inl rfl, corner_self js⟩

theorem node_own : ∀ (as : List (Axis K)), (∀ a ∈ as, a.Good) → ∀ js : List ℕ, List.Forall₂ (fun (a : Axis K) j => j + 1 < a.n) as js → OwnCell as js (nodeOf as js)
  | [], _, [], _ => trivial
  | a :: as, hg, j :: js, .cons h1 h2 =>
    ⟨h1, Or.inr le_rfl, Or.inr ((hg a (by simp)).2 _ _ (by omega)), node_own as (fun b hb => hg b (by simp [hb])) js h2⟩

/-- **C147 (at the nodes, partial).** At a grid node (not on the last plane of an axis) the value is the node's own entry when no
entry one step up the axes is NaN. Missing: that a number at the node is enough, which is false (`C147_node_lost`). -/
theorem C147_node_partial {u : K} (ha : SdfFl.Accurate rnd u) (hu : u < 1) (h1 : rnd 1 = 1) {as : List (Axis K)} (hg : ∀ a ∈ as, a.Good) {js : List ℕ}
    (hj : List.Forall₂ (fun (a : Axis K) j => j + 1 < a.n) as js) {A : List ℕ → Option K} (hA : ∀ ks, Corner js ks → A ks ≠ none) {v : K} (hv : A js = some v) (hr : rnd v = v) :
    interp rnd as A (nodeOf as js) = some v := by
  have hn : IsNode as js := by
    clear hA hv
    induction hj with
    | nil => trivial
    | cons h _ ih => exact ⟨by omega, ih fun b hb => hg b (by simp [hb])⟩
  have e : interp rnd as A (nodeOf as js) = some (InterpFl.interp rnd as (fun ks => (A ks).getD 0) (nodeOf as js)) := by
    refine C147_elsewhere hg (node_own as hg js hj) fun ks hk => ?_
    obtain ⟨y, hy⟩ := Option.ne_none_iff_exists'.1 (hA ks hk)
    simp [hy]
  · rw [e]
    rw [InterpFl.C141_nodes ha hu h1 hg hn (by simp [hv, hr])]
    simp [hv]

/-- **C147 (a number is lost).** When an entry one step up the axes from a node is NaN, the value at the node itself is NaN, for every entry of the node. -/
theorem C147_node_lost {as : List (Axis K)} (hg : ∀ a ∈ as, a.Good) {js ks : List ℕ} (hj : List.Forall₂ (fun (a : Axis K) j => j + 1 < a.n) as js)
    (hk : Corner js ks) {A : List ℕ → Option K} (hA : A ks = none) : interp rnd as A (nodeOf as js) = none :=
  (C147_nan hg (node_own as hg js hj) A).2 ⟨ks, hk, hA⟩

/-- **C147 (parallel).** The sizing function of a rank is NaN at a point exactly when the global one is NaN at a node of the local cell of the point: with every transfer the NaN region grows to whole local cells. -/
theorem C147_local {as ls : List (Axis K)} (hg : ∀ a ∈ as, a.Good) (hl : ∀ a ∈ ls, a.Good) {is : List ℕ} {xs : List K} (hc : OwnCell ls is xs) {cell : List ℕ → List ℕ}
    (hcell : ∀ js, Corner is js → OwnCell as (cell js) (nodeOf ls js)) (A : List ℕ → Option K) :
    localize rnd ls (interp rnd as A) xs = none ↔ ∃ js, Corner is js ∧ ∃ ks, Corner (cell js) ks ∧ A ks = none := by
  unfold localize
  rw [C147_nan hl hc]
  constructor
  · rintro ⟨js, h1, h2⟩
    exact ⟨js, h1, (C147_nan hg (hcell js h1) A).1 h2⟩
  · rintro ⟨js, h1, h2⟩
    exact ⟨js, h1, (C147_nan hg (hcell js h1) A).2 h2⟩

/-- The grid vector 0, 1, 2. -/
def unit3 : Axis ℚ := ⟨3, fun i => i⟩

theorem unit3_good : unit3.Good := ⟨by decide, fun i j h => by simpa [unit3] using h⟩

/-- **C147 (witness).** Sizes 50, NaN, 50 in double precision: at the node 0, whose size is 50, the sizing function is NaN; at the node 2 it is NaN too, for there is no cell beyond. -/
theorem C147_witness : ∃ A : List ℕ → Option ℚ, A [0] = some 50 ∧ A [2] = some 50 ∧ interp Fl.binary64 [unit3] A (nodeOf [unit3] [0]) = none ∧
    interp Fl.binary64 [unit3] A (nodeOf [unit3] [2]) = none :=
  ⟨fun js => if js = [1] then none else some 50, by decide, by decide, by decide +kernel, by decide +kernel⟩

/-- The hypotheses of the theorems above are met. -/
example : (∀ a ∈ [unit3, unit3], a.Good) ∧ OwnCell [unit3, unit3] [0, 1] [1 / 2, 1] ∧ List.Forall₂ (fun (a : Axis ℚ) j => j + 1 < a.n) [unit3, unit3] [0, 1] ∧
    SdfFl.Accurate Fl.binary64 (1 / 9007199254740992) ∧ Fl.binary64 50 = 50 :=
  ⟨by simp [unit3_good], ⟨by decide, Or.inl rfl, Or.inr (by norm_num [unit3]), by decide, Or.inr (by norm_num [unit3]), Or.inl rfl, trivial⟩,
    .cons (by decide) (.cons (by decide) .nil), fun q => Fl.binary64_error q, by decide +kernel⟩

end SM.InterpNan
