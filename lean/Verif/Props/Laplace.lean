import Verif.Model.Laplace
import Verif.Props.Topology
import Mathlib.LinearAlgebra.Matrix.ToLin
import Mathlib.LinearAlgebra.FiniteDimensional.Lemmas
import Mathlib.Logic.Relation
import Mathlib.Tactic.Ring
import Mathlib.Tactic.FieldSimp
import Mathlib.Tactic.Positivity

/-!
# C40, C41: Laplacian smoothing
-/

namespace SM.Laplace

open Np Topology FixMesh

variable {ρ : Type} [LinearOrder ρ] {n d : ℕ}

/-! ### Sparse assembly -/

theorem cooEntry_append {R : Type} [AddCommMonoid R] (l m : List (ℕ × ℕ × R)) (i j : ℕ) :
    cooEntry (l ++ m) i j = cooEntry l i j + cooEntry m i j := by
  unfold cooEntry; rw [List.filter_append, List.map_append, List.sum_append]

theorem cooEntry_cons {R : Type} [AddCommMonoid R] (e : ℕ × ℕ × R) (l : List (ℕ × ℕ × R)) (i j : ℕ) :
    cooEntry (e :: l) i j = (if e.1 = i ∧ e.2.1 = j then e.2.2 else 0) + cooEntry l i j := by
  unfold cooEntry
  rw [List.filter_cons]
  by_cases h : e.1 = i ∧ e.2.1 = j <;> simp [h]

theorem cooEntry_nil {R : Type} [AddCommMonoid R] (i j : ℕ) :
    cooEntry ([] : List (ℕ × ℕ × R)) i j = 0 := rfl

/-- Row sums. -/
theorem sum_cooEntry {R : Type} [AddCommMonoid R] {l : List (ℕ × ℕ × R)}
    (h : ∀ e ∈ l, e.2.1 < n) (i : ℕ) :
    ∑ j : Fin n, cooEntry l i j = (l.map fun e => if e.1 = i then e.2.2 else 0).sum := by
  induction l with
  | nil => simp [cooEntry_nil]
  | cons e l ih =>
    have he := h e (by simp)
    simp only [cooEntry_cons, Finset.sum_add_distrib, ih fun f hf => h f (by simp [hf]),
      List.map_cons, List.sum_cons]
    congr 1
    by_cases hi : e.1 = i
    · simp only [hi, true_and, if_true]
      rw [Finset.sum_eq_single (⟨e.2.1, he⟩ : Fin n)]
      · simp
      · intro j _ hj
        rw [if_neg]
        intro hc; exact hj (Fin.ext hc.symm)
      · simp
    · simp [hi]

theorem adjacency_entry {a b c : ℕ} (hnd : [a, b, c].Nodup) (i j : ℕ) :
    cooEntry [(a, b, 1), (a, c, 1), (b, a, 1), (b, c, 1), (c, a, 1), (c, b, 1)] i j =
      if i ≠ j ∧ i ∈ [a, b, c] ∧ j ∈ [a, b, c] then 1 else 0 := by
  simp only [List.nodup_cons, List.mem_cons, List.not_mem_nil, or_false, not_or, not_false_eq_true,
    List.nodup_nil, and_true] at hnd
  obtain ⟨⟨hab, hac⟩, hbc⟩ := hnd
  simp only [cooEntry_cons, cooEntry_nil, List.mem_cons, List.not_mem_nil, or_false]
  split_ifs <;> omega

theorem adjacency_ok {ents : List (List ℕ)} (h : Simplices 3 ents) :
    ∃ parts, ents.mapM adjacency = .ok parts ∧
      (∀ i j, cooEntry parts.flatten i j = if i = j then 0 else shared ents i j) ∧
      (∀ e ∈ parts.flatten, ∃ r ∈ ents, e.1 ∈ r ∧ e.2.1 ∈ r ∧ e.2.2 = 1) := by
  induction ents with
  | nil => exact ⟨[], rfl, by intro i j; simp [cooEntry_nil, shared], by simp⟩
  | cons r rs ih =>
    obtain ⟨parts, hp, h1, h2⟩ := ih fun r hr => h r (by simp [hr])
    have hnd := (h r (by simp)).2
    obtain ⟨a, b, c, rfl⟩ := length3 (h r (by simp)).1
    refine ⟨_ :: parts, by rw [List.mapM_cons, hp]; rfl, ?_, ?_⟩
    · intro i j
      rw [List.flatten_cons, cooEntry_append, h1, adjacency_entry hnd]
      unfold shared
      rw [List.countP_cons]
      by_cases hij : i = j
      · simp [hij]
      · by_cases hm : i ∈ [a, b, c] ∧ j ∈ [a, b, c]
        · simp only [ne_eq, hij, not_false_eq_true, true_and, hm, and_self, if_true, if_false,
            decide_true]; omega
        · simp only [ne_eq, hij, not_false_eq_true, true_and, hm, if_false, decide_false,
            Bool.false_eq_true]; omega
    · intro e he
      rw [List.flatten_cons, List.mem_append] at he
      rcases he with he | he
      · refine ⟨[a, b, c], by simp, ?_⟩
        simp only [List.mem_cons, List.not_mem_nil, or_false] at he
        rcases he with rfl | rfl | rfl | rfl | rfl | rfl <;> simp
      · obtain ⟨r, hr, h3⟩ := h2 e he
        exact ⟨r, by simp [hr], h3⟩

/-- The triples contributed by one triangle. -/
def stiffRow (a b c : ℕ) : List (ℕ × ℕ × ℤ) :=
  [(b, b, 1), (c, c, 1), (b, c, -1), (c, b, -1), (c, c, 1), (a, a, 1), (c, a, -1), (a, c, -1),
    (a, a, 1), (b, b, 1), (a, b, -1), (b, a, -1)]

theorem stiff_entry {a b c : ℕ} (hnd : [a, b, c].Nodup) {i j : ℕ} (hij : i ≠ j) :
    cooEntry (stiffRow a b c) i j = if i ∈ [a, b, c] ∧ j ∈ [a, b, c] then -1 else 0 := by
  simp only [List.nodup_cons, List.mem_cons, List.not_mem_nil, or_false, not_or, not_false_eq_true,
    List.nodup_nil, and_true] at hnd
  obtain ⟨⟨hab, hac⟩, hbc⟩ := hnd
  simp only [stiffRow, cooEntry_cons, cooEntry_nil, List.mem_cons, List.not_mem_nil, or_false]
  by_cases h1 : i = a <;> by_cases h2 : i = b <;> by_cases h3 : i = c <;>
    by_cases h4 : j = a <;> by_cases h5 : j = b <;> by_cases h6 : j = c <;> simp_all [eq_comm]

theorem stiff_ok {ents : List (List ℕ)} (h : Simplices 3 ents) :
    ∃ parts, ents.mapM stiff = .ok parts ∧
      (∀ i j, i ≠ j → cooEntry parts.flatten i j = -(shared ents i j : ℤ)) ∧
      (∀ i, (parts.flatten.map fun e => if e.1 = i then e.2.2 else 0).sum = 0) ∧
      (∀ e ∈ parts.flatten, ∃ r ∈ ents, e.1 ∈ r ∧ e.2.1 ∈ r) := by
  induction ents with
  | nil => exact ⟨[], rfl, by intro i j _; simp [cooEntry_nil, shared], by simp, by simp⟩
  | cons r rs ih =>
    obtain ⟨parts, hp, h1, h2, h3⟩ := ih fun r hr => h r (by simp [hr])
    have hnd := (h r (by simp)).2
    obtain ⟨a, b, c, rfl⟩ := length3 (h r (by simp)).1
    refine ⟨stiffRow a b c :: parts, by rw [List.mapM_cons, hp]; rfl, ?_, ?_, ?_⟩
    · intro i j hij
      rw [List.flatten_cons, cooEntry_append, h1 i j hij, stiff_entry hnd hij]
      unfold shared
      rw [List.countP_cons]
      by_cases hm : i ∈ [a, b, c] ∧ j ∈ [a, b, c]
      · simp only [hm, and_self, if_true, decide_true]; push_cast; omega
      · simp only [hm, if_false, decide_false, Bool.false_eq_true]; simp
    · intro i
      rw [List.flatten_cons, List.map_append, List.sum_append, h2 i]
      simp only [stiffRow, List.map_cons, List.map_nil, List.sum_cons, List.sum_nil]
      split_ifs <;> rfl
    · intro e he
      rw [List.flatten_cons, List.mem_append] at he
      rcases he with he | he
      · refine ⟨[a, b, c], by simp, ?_⟩
        simp only [stiffRow, List.mem_cons, List.not_mem_nil, or_false] at he
        rcases he with rfl | rfl | rfl | rfl | rfl | rfl | rfl | rfl | rfl | rfl | rfl | rfl <;> simp
      · obtain ⟨r, hr, h3⟩ := h3 e he
        exact ⟨r, by simp [hr], h3⟩

/-! ### C41 -/

section fixedpoint
variable {K : Type} [Field K] [LinearOrder K] [IsStrictOrderedRing K]

/-- Two vertices of a common triangle. -/
def Adjacent (ents : List (List ℕ)) (i j : ℕ) : Prop := i ≠ j ∧ 0 < shared ents i j

/-- Every vertex is connected to a boundary vertex along edges of the mesh. -/
def BoundaryConnected (n : ℕ) (ents : List (List ℕ)) : Prop :=
  ∀ i < n, ∃ b, OnBoundary2 ents b ∧ Relation.ReflTransGen (Adjacent ents) i b

/-- `x` solves the smoothing equations: boundary vertices are kept, an interior vertex is at the
average of its neighbours, weighted by the number of common triangles. -/
structure Smooth (ents : List (List ℕ)) (v x : Fin n → Fin d → K) : Prop where
  boundary : ∀ i : Fin n, OnBoundary2 ents i → x i = v i
  interior : ∀ i : Fin n, ¬ OnBoundary2 ents i → ∀ k,
    ∑ j ∈ Finset.univ.erase i, (shared ents i j : K) * (x i k - x j k) = 0

theorem assemble_run {rk : List ℕ → ρ} (hrk : Function.Injective rk) {ents : List (List ℕ)}
    (h : Simplices 3 ents) (hr : ∀ r ∈ ents, ∀ i ∈ r, i < n) (v : Fin n → Fin d → K) :
    ∃ m rhs, assemble rk v ents = .ok (m, rhs) ∧
      ∀ x : Matrix (Fin n) (Fin d) K, m * x = rhs ↔ Smooth ents v x := by
  obtain ⟨parts, hp, h1, h2, h3⟩ := stiff_ok h
  obtain ⟨bv, hbv, -, hm⟩ := C35_boundary_vertices2 hrk h
  have hchk : cooCheck n parts.flatten = .ok () := by
    unfold cooCheck
    rw [if_pos]
    rw [List.all_eq_true]
    intro e he
    obtain ⟨r, hr', he1, he2⟩ := h3 e he
    exact decide_eq_true ⟨hr r hr' _ he1, hr r hr' _ he2⟩
  have hcol : ∀ e ∈ parts.flatten, e.2.1 < n := by
    intro e he
    obtain ⟨r, hr', -, he2⟩ := h3 e he
    exact hr r hr' _ he2
  have hrun : assemble rk v ents = .ok (dirichlet K n parts.flatten bv, rhsOf bv v) := by
    unfold assemble; simp only [hp, hchk, hbv, bind, Except.bind, pure, Except.pure]
  refine ⟨_, _, hrun, ?_⟩
  intro x
  rw [← Matrix.ext_iff]
  have hrow : ∀ i : Fin n, ∀ k, i.1 ∉ bv →
      ∑ j, dirichlet K n parts.flatten bv i j * x j k =
      ∑ j ∈ Finset.univ.erase i, (shared ents i j : K) * (x i k - x j k) := by
    intro i k hi
    have hdiag : ((cooEntry parts.flatten i i : ℤ) : K) =
        ∑ j ∈ Finset.univ.erase i, (shared ents i j : K) := by
      have hs := sum_cooEntry hcol (i : ℕ)
      rw [h2, ← Finset.add_sum_erase _ _ (Finset.mem_univ i)] at hs
      have hs' : ∑ j ∈ Finset.univ.erase i, cooEntry parts.flatten i j =
          -∑ j ∈ Finset.univ.erase i, (shared ents i j : ℤ) := by
        rw [← Finset.sum_neg_distrib]
        refine Finset.sum_congr rfl fun j hj => h1 i j ?_
        exact fun he => (Finset.ne_of_mem_erase hj) (Fin.ext he.symm)
      rw [hs'] at hs
      have : cooEntry parts.flatten i i = ∑ j ∈ Finset.univ.erase i, (shared ents i j : ℤ) := by
        linarith
      rw [this]; push_cast; rfl
    rw [← Finset.add_sum_erase _ _ (Finset.mem_univ i)]
    simp only [dirichlet, Matrix.of_apply, if_true, hi, if_false]
    rw [hdiag, Finset.sum_mul]
    have : ∑ j ∈ Finset.univ.erase i, (if i = j then ((cooEntry parts.flatten i i : ℤ) : K)
        else ((cooEntry parts.flatten i j : ℤ) : K)) * x j k =
        ∑ j ∈ Finset.univ.erase i, -((shared ents i j : K) * x j k) := by
      refine Finset.sum_congr rfl fun j hj => ?_
      have hne := Finset.ne_of_mem_erase hj
      rw [if_neg hne.symm, h1 i j fun he => hne (Fin.ext he.symm)]
      push_cast; ring
    rw [hdiag] at this
    rw [this, ← Finset.sum_add_distrib]
    exact Finset.sum_congr rfl fun j _ => by ring
  constructor
  · intro hx
    constructor
    · intro i hi
      have hib := (hm i).2 hi
      funext k
      have := hx i k
      rw [Matrix.mul_apply, Finset.sum_eq_single i] at this
      · simpa [hib, dirichlet, rhsOf] using this
      · intro j _ hj
        simp [hib, hj.symm, dirichlet]
      · simp
    · intro i hi k
      have hib : i.1 ∉ bv := fun hc => hi ((hm i).1 hc)
      have := hx i k
      rw [Matrix.mul_apply, hrow i k hib] at this
      simpa [hib, rhsOf] using this
  · intro hx i k
    rw [Matrix.mul_apply]
    by_cases hib : i.1 ∈ bv
    · rw [Finset.sum_eq_single i]
      · simp [hib, hx.boundary i ((hm i).1 hib), dirichlet, rhsOf]
      · intro j _ hj
        simp [hib, hj.symm, dirichlet]
      · simp
    · rw [hrow i k hib, hx.interior i (fun hc => hib ((hm i).2 hc)) k]
      simp [hib, rhsOf]

/-- Maximum principle, upper bound, for one coordinate. -/
theorem smooth_le {ents : List (List ℕ)} (hr : ∀ r ∈ ents, ∀ i ∈ r, i < n)
    (hc : BoundaryConnected n ents) {v x : Fin n → Fin d → K} (hx : Smooth ents v x) (k : Fin d)
    (f : K → K) (hf : f = id ∨ f = Neg.neg) {hi : K}
    (hb : ∀ i : Fin n, OnBoundary2 ents i → f (v i k) ≤ hi) (i : Fin n) : f (x i k) ≤ hi := by
  obtain ⟨m, -, hmax⟩ := Finset.exists_max_image Finset.univ (fun j : Fin n => f (x j k)) ⟨i, Finset.mem_univ i⟩
  have hmax' : ∀ j, f (x j k) ≤ f (x m k) := fun j => hmax j (Finset.mem_univ j)
  refine (hmax' i).trans ?_
  -- spread the maximum along the path to the boundary
  obtain ⟨b, hbb, hpath⟩ := hc m m.2
  have key : ∀ a, Relation.ReflTransGen (Adjacent ents) a b → ∀ ha : a < n,
      f (x ⟨a, ha⟩ k) = f (x m k) → f (x m k) ≤ hi := by
    intro a hab
    induction hab using Relation.ReflTransGen.head_induction_on with
    | refl =>
      intro ha heq
      rw [← heq, hx.boundary ⟨b, ha⟩ hbb]
      exact hb ⟨b, ha⟩ hbb
    | head hstep _ ih =>
      rename_i a c _
      intro ha heq
      by_cases hA : OnBoundary2 ents a
      · rw [← heq, hx.boundary ⟨a, ha⟩ hA]
        exact hb ⟨a, ha⟩ hA
      · obtain ⟨hac, hsh⟩ := hstep
        have hcn : c < n := by
          obtain ⟨r, hr', hd⟩ := List.countP_pos_iff.1 hsh
          exact hr r hr' c (of_decide_eq_true hd).2
        refine ih hcn ?_
        have hsum := hx.interior ⟨a, ha⟩ hA k
        have hsum' : ∑ j ∈ Finset.univ.erase (⟨a, ha⟩ : Fin n),
            (shared ents a j : K) * (f (x ⟨a, ha⟩ k) - f (x j k)) = 0 := by
          rcases hf with rfl | rfl
          · simpa using hsum
          · have : ∑ j ∈ Finset.univ.erase (⟨a, ha⟩ : Fin n),
                (shared ents a j : K) * (-(x ⟨a, ha⟩ k) - -(x j k)) =
                -∑ j ∈ Finset.univ.erase (⟨a, ha⟩ : Fin n),
                  (shared ents a j : K) * (x ⟨a, ha⟩ k - x j k) := by
              rw [← Finset.sum_neg_distrib]
              exact Finset.sum_congr rfl fun j _ => by ring
            rw [this]; simp only at hsum; rw [hsum, neg_zero]
        have hnn : ∀ j ∈ Finset.univ.erase (⟨a, ha⟩ : Fin n),
            0 ≤ (shared ents a j : K) * (f (x ⟨a, ha⟩ k) - f (x j k)) := by
          intro j _
          apply mul_nonneg (Nat.cast_nonneg _)
          rw [heq]; linarith [hmax' j]
        have hz := (Finset.sum_eq_zero_iff_of_nonneg hnn).1 hsum' ⟨c, hcn⟩
          (Finset.mem_erase.2 ⟨fun he => hac (congrArg Fin.val he).symm, Finset.mem_univ _⟩)
        rcases mul_eq_zero.1 hz with h0 | h0
        · have : shared ents a c = 0 := by exact_mod_cast h0
          omega
        · rw [← heq]; linarith
  exact key m hpath m.2 rfl

/-- **C41 (the system is the smoothing condition).** For every 2-D mesh of valid triangles,
assembling succeeds, and `x` solves the system exactly if boundary vertices are kept and every
interior vertex is at the weighted average of its neighbours. -/
theorem C41_system {rk : List ℕ → ρ} (hrk : Function.Injective rk) {ents : List (List ℕ)}
    (h : Simplices 3 ents) (hr : ∀ r ∈ ents, ∀ i ∈ r, i < n) (v : Fin n → Fin d → K) :
    ∃ m rhs, assemble rk v ents = .ok (m, rhs) ∧
      ∀ x : Matrix (Fin n) (Fin d) K, m * x = rhs ↔ Smooth ents v x := assemble_run hrk h hr v

/-- **C41 (maximum principle).** Each coordinate of a solution stays within the range of the
boundary vertices. -/
theorem C41_range {ents : List (List ℕ)} (hr : ∀ r ∈ ents, ∀ i ∈ r, i < n)
    (hc : BoundaryConnected n ents) {v x : Fin n → Fin d → K} (hx : Smooth ents v x) (k : Fin d)
    {lo hi : K} (hb : ∀ i : Fin n, OnBoundary2 ents i → lo ≤ v i k ∧ v i k ≤ hi) (i : Fin n) :
    lo ≤ x i k ∧ x i k ≤ hi := by
  constructor
  · have := smooth_le hr hc hx k Neg.neg (Or.inr rfl) (hi := -lo)
      (fun i hi => neg_le_neg (hb i hi).1) i
    exact neg_le_neg_iff.1 this
  · exact smooth_le hr hc hx k id (Or.inl rfl) (fun i hi => (hb i hi).2) i

/-- **C41 (existence and uniqueness).** If every vertex is connected to the boundary, the system
has exactly one solution. -/
theorem C41_unique {rk : List ℕ → ρ} (hrk : Function.Injective rk) {ents : List (List ℕ)}
    (h : Simplices 3 ents) (hr : ∀ r ∈ ents, ∀ i ∈ r, i < n) (hc : BoundaryConnected n ents)
    (v : Fin n → Fin d → K) :
    ∃ m rhs, assemble rk v ents = .ok (m, rhs) ∧
      ∃! x : Matrix (Fin n) (Fin d) K, m * x = rhs := by
  obtain ⟨m, rhs, hrun, hiff⟩ := assemble_run hrk h hr v
  refine ⟨m, rhs, hrun, ?_⟩
  -- the matrix does not depend on the coordinates
  have hker : ∀ x : Matrix (Fin n) (Fin d) K, m * x = 0 → x = 0 := by
    intro x hx0
    -- x solves the system with zero boundary values
    obtain ⟨m', rhs', hrun', hiff'⟩ := assemble_run hrk h hr (fun (_ : Fin n) (_ : Fin d) => (0 : K))
    have hmm : m' = m ∧ rhs' = 0 := by
      obtain ⟨parts, hp, -, -, h3⟩ := stiff_ok h
      obtain ⟨bv, hbv, -, -⟩ := C35_boundary_vertices2 hrk h
      have hchk : cooCheck n parts.flatten = .ok () := by
        unfold cooCheck
        rw [if_pos]
        rw [List.all_eq_true]
        intro e he
        obtain ⟨r, hr', he1, he2⟩ := h3 e he
        exact decide_eq_true ⟨hr r hr' _ he1, hr r hr' _ he2⟩
      unfold assemble at hrun hrun'
      simp only [hp, hchk, hbv, bind, Except.bind, pure, Except.pure, Except.ok.injEq,
        Prod.mk.injEq] at hrun hrun'
      refine ⟨hrun'.1.symm.trans hrun.1, ?_⟩
      rw [← hrun'.2]
      ext i k; simp [rhsOf]
    rw [hmm.1, hmm.2] at hiff'
    have hsm := (hiff' x).1 hx0
    ext i k
    have := C41_range hr hc hsm k (lo := 0) (hi := 0) (fun _ _ => ⟨le_refl _, le_refl _⟩) i
    exact le_antisymm this.2 this.1
  have hinj : Function.Injective (fun x : Matrix (Fin n) (Fin d) K => m * x) := by
    intro x y hxy
    have : m * (x - y) = 0 := by rw [Matrix.mul_sub]; exact sub_eq_zero.2 hxy
    exact sub_eq_zero.1 (hker _ this)
  have hsurj : Function.Surjective (fun x : Matrix (Fin n) (Fin d) K => m * x) := by
    let L : Matrix (Fin n) (Fin d) K →ₗ[K] Matrix (Fin n) (Fin d) K :=
      { toFun := fun x => m * x
        map_add' := fun x y => Matrix.mul_add _ _ _
        map_smul' := fun c x => by simp }
    exact (LinearMap.injective_iff_surjective (f := L)).1 hinj
  obtain ⟨x, hx⟩ := hsurj rhs
  exact ⟨x, hx, fun y hy => hinj (hy.trans hx.symm)⟩

end fixedpoint

/-! ### C40 -/

/-- Squared distance. -/
def distSq (a b : Fin d → ℝ) : ℝ := ∑ k, (a k - b k) ^ 2

/-- `i` is a vertex closest to the point `f`. -/
def IsClosest (v : Fin n → Fin d → ℝ) (f : Fin d → ℝ) (i : Fin n) : Prop :=
  ∀ j, distSq (v i) f ≤ distSq (v j) f

theorem closest_ok (hn : 0 < n) (f : Fin d → ℝ) (v : Fin n → Fin d → ℝ) :
    ∃ i : Fin n, closest f v = .ok i.1 ∧ IsClosest v f i := by
  unfold closest
  cases h : (List.finRange n).argmin fun i => ∑ k, (v i k - f k) ^ 2 with
  | none =>
    rw [List.argmin_eq_none] at h
    have := congrArg List.length h
    simp at this; omega
  | some i => exact ⟨i, rfl, fun j => List.le_of_mem_argmin (List.mem_finRange j) (by rw [h]; rfl)⟩

theorem barLengths_ok {edge : List (List ℕ)} (eps : ℝ) (v : Fin n → Fin d → ℝ)
    (he : ∀ e ∈ edge, ∃ a b, e = [a, b] ∧ a < n ∧ b < n) :
    ∃ L, barLengths eps edge v = .ok L ∧ L.length = edge.length := by
  obtain ⟨L, hL⟩ := mapM_exists (l := edge) (f := fun e => (do
    let a ← item (List.ofFn v) (e.getD 0 n)
    let b ← item (List.ofFn v) (e.getD 1 n)
    return max (Real.sqrt (∑ k, (a k - b k) ^ 2)) eps : Except String ℝ)) (by
      intro e hmem
      obtain ⟨a, b, rfl, ha, hb⟩ := he e hmem
      simp [item, ha, hb, bind, Except.bind, pure, Except.pure])
  exact ⟨L, hL, (mapM_forall₂.1 hL).length_eq.symm⟩

theorem iterate_ok {edge : List (List ℕ)} (hne : edge ≠ []) (eps tol : ℝ)
    (he : ∀ e ∈ edge, ∃ a b, e = [a, b] ∧ a < n ∧ b < n)
    {sw : (Fin n → Fin d → ℝ) → Fin n → Fin d → ℝ} (Inv : (Fin n → Fin d → ℝ) → Prop)
    (hstep : ∀ v, Inv v → Inv (sw v)) :
    ∀ (m : ℕ) (L : List ℝ) (v), L.length = edge.length → Inv v →
      ∃ v', iterate eps tol edge sw m L v = .ok v' ∧ Inv v' := by
  intro m
  induction m with
  | zero => intro L v _ hv; exact ⟨v, rfl, hv⟩
  | succ m ih =>
    intro L v hL hv
    obtain ⟨Ln, hLn, hlen⟩ := barLengths_ok eps (sw v) he
    have hmv : ∃ mv, amaxMove L Ln = .ok mv := by
      have h0 : 0 < edge.length := List.length_pos_of_ne_nil hne
      match L, Ln, hL, hlen with
      | l :: L, l' :: L', _, _ => exact ⟨_, rfl⟩
      | [], _, h, _ => simp at h; omega
      | _, [], _, h => simp at h; omega
    obtain ⟨mv, hmv⟩ := hmv
    unfold iterate
    simp only [hLn, hmv, bind, Except.bind, pure, Except.pure]
    split_ifs
    · exact ⟨_, rfl, hstep v hv⟩
    · exact ih Ln _ hlen (hstep v hv)

/-- The state of the smoothing loop, unfolded. -/
theorem laplacian2_run {rk : List ℕ → ρ} (hrk : Function.Injective rk) (eps tol : ℝ)
    {ents : List (List ℕ)} (h : Simplices 3 ents) (hr : ∀ r ∈ ents, ∀ i ∈ r, i < n)
    (hne : ents ≠ []) (v : Fin n → Fin d → ℝ) (pfix : Option (List (Fin d → ℝ))) :
    ∃ (S : ℕ → ℕ → ℕ) (bnd : List ℕ) (edge : List (List ℕ)) (L : List ℝ),
      (∀ i j, S i j = if i = j then 0 else shared ents i j) ∧
      (∀ i, OnBoundary2 ents i → i ∈ bnd) ∧
      (∀ i ∈ bnd, OnBoundary2 ents i ∨ ∃ fs, pfix = some fs ∧ ∃ f ∈ fs, ∃ hi : i < n, IsClosest v f ⟨i, hi⟩) ∧
      (∀ fs, pfix = some fs → ∀ f ∈ fs, ∃ i : Fin n, i.1 ∈ bnd ∧ IsClosest v f i) ∧
      edge ≠ [] ∧ (∀ e ∈ edge, ∃ a b, e = [a, b] ∧ a < n ∧ b < n) ∧
      (barLengths eps edge v = .ok L ∧ L.length = edge.length ∧
        (∀ a b, [a, b] ∈ edge → Adjacent ents a b) ∧
        ∀ a b, Adjacent ents a b → [a, b] ∈ edge ∨ [b, a] ∈ edge) ∧
      ∀ maxIter, laplacian2 rk eps v ents maxIter tol pfix =
        (if (List.finRange n).any fun i => (∑ j : Fin n, S i j) = 0 then .ok (v, ents)
        else do
          let v' ← iterate eps tol edge (sweep S (fun i => ∑ j : Fin n, S i j) bnd) maxIter L v
          return (v', ents)) := by
  obtain ⟨parts, hp, h1, h2⟩ := adjacency_ok h
  obtain ⟨bv, hbv, -, hm⟩ := C35_boundary_vertices2 hrk h
  have hedge := edges2_ok h
  have hchk : cooCheck n parts.flatten = .ok () := by
    unfold cooCheck
    rw [if_pos]
    rw [List.all_eq_true]
    intro e he
    obtain ⟨r, hr', he1, he2, -⟩ := h2 e he
    exact decide_eq_true ⟨hr r hr' _ he1, hr r hr' _ he2⟩
  have hn : 0 < n := by
    match ents, hne with
    | r :: rs, _ =>
      have h0 := h r (by simp)
      obtain ⟨a, b, c, rfl⟩ := length3 h0.1
      have := hr [a, b, c] (by simp) a (by simp)
      omega
  generalize hE : (ents.map fun r => [[r.getD 0 0, r.getD 1 0], [r.getD 0 0, r.getD 2 0],
    [r.getD 1 0, r.getD 2 0]]).flatten = edge at hedge
  have hEne : edge ≠ [] := by
    match ents, hne with
    | r :: rs, _ => rw [← hE]; simp
  have hEs : ∀ e ∈ edge, ∃ a b, e = [a, b] ∧ a < n ∧ b < n := by
    intro e he
    rw [← hE, List.mem_flatten] at he
    obtain ⟨l, hl, hel⟩ := he
    obtain ⟨r, hr', rfl⟩ := List.mem_map.1 hl
    obtain ⟨a, b, c, rfl⟩ := length3 (h r hr').1
    have ha := hr _ hr' a (by simp)
    have hb := hr _ hr' b (by simp)
    have hc := hr _ hr' c (by simp)
    simp only [List.mem_cons, List.not_mem_nil, or_false] at hel
    rcases hel with rfl | rfl | rfl
    · exact ⟨a, b, rfl, ha, hb⟩
    · exact ⟨a, c, rfl, ha, hc⟩
    · exact ⟨b, c, rfl, hb, hc⟩
  have hAd1 : ∀ a b, [a, b] ∈ edge → Adjacent ents a b := by
    intro x y he
    rw [← hE, List.mem_flatten] at he
    obtain ⟨l, hl, hel⟩ := he
    obtain ⟨r, hr', rfl⟩ := List.mem_map.1 hl
    have hnd := (h r hr').2
    obtain ⟨a, b, c, rfl⟩ := length3 (h r hr').1
    simp only [List.nodup_cons, List.mem_cons, List.not_mem_nil, or_false, not_or,
      not_false_eq_true, List.nodup_nil, and_true] at hnd
    obtain ⟨⟨hab, hac⟩, hbc⟩ := hnd
    have hsh : x ∈ [a, b, c] → y ∈ [a, b, c] → 0 < shared ents x y := fun hx hy =>
      List.countP_pos_iff.2 ⟨_, hr', decide_eq_true ⟨hx, hy⟩⟩
    simp only [List.mem_cons, List.not_mem_nil, or_false, List.cons.injEq, and_true,
      List.getD_cons_zero, List.getD_cons_succ] at hel
    rcases hel with ⟨rfl, rfl⟩ | ⟨rfl, rfl⟩ | ⟨rfl, rfl⟩
    · exact ⟨hab, hsh (by simp) (by simp)⟩
    · exact ⟨hac, hsh (by simp) (by simp)⟩
    · exact ⟨hbc, hsh (by simp) (by simp)⟩
  have hAd2 : ∀ a b, Adjacent ents a b → [a, b] ∈ edge ∨ [b, a] ∈ edge := by
    rintro x y ⟨hxy, hsh⟩
    obtain ⟨r, hr', hd⟩ := List.countP_pos_iff.1 hsh
    obtain ⟨hx, hy⟩ := of_decide_eq_true hd
    have hin : ∀ e, e ∈ [[r.getD 0 0, r.getD 1 0], [r.getD 0 0, r.getD 2 0],
        [r.getD 1 0, r.getD 2 0]] → e ∈ edge := fun e he => by
      rw [← hE, List.mem_flatten]
      exact ⟨_, List.mem_map.2 ⟨r, hr', rfl⟩, he⟩
    obtain ⟨a, b, c, rfl⟩ := length3 (h r hr').1
    simp only [List.mem_cons, List.not_mem_nil, or_false] at hx hy
    rcases hx with rfl | rfl | rfl <;> rcases hy with rfl | rfl | rfl <;>
      first
        | exact absurd rfl hxy
        | (refine Or.inl (hin _ ?_); simp; done)
        | (refine Or.inr (hin _ ?_); simp; done)
  obtain ⟨L, hL, hLlen⟩ := barLengths_ok eps v hEs
  cases pfix with
  | none =>
    refine ⟨cooEntry parts.flatten, bv, edge, L, h1, fun i hi => (hm i).2 hi,
      fun i hi => Or.inl ((hm i).1 hi), by simp, hEne, hEs, ⟨hL, hLlen, hAd1, hAd2⟩, fun maxIter => ?_⟩
    unfold laplacian2
    simp only [hp, hchk, hbv, hedge, hL, bind, Except.bind, pure, Except.pure]
  | some fs =>
    have hfs : ∀ f ∈ fs, ∃ i, closest f v = .ok i := fun f _ => by
      obtain ⟨i, hi, -⟩ := closest_ok hn f v
      exact ⟨_, hi⟩
    obtain ⟨ifix, hifix⟩ := mapM_exists (f := fun f => closest f v) hfs
    have hF := mapM_forall₂.1 hifix
    refine ⟨cooEntry parts.flatten, bv ++ ifix, edge, L, h1,
      fun i hi => List.mem_append_left _ ((hm i).2 hi), ?_, ?_, hEne, hEs, ⟨hL, hLlen, hAd1, hAd2⟩, ?_⟩
    · intro i hi
      rcases List.mem_append.1 hi with hi | hi
      · exact Or.inl ((hm i).1 hi)
      · obtain ⟨f, hf, hfi⟩ := forall₂_right hF i hi
        obtain ⟨j, hj, hc⟩ := closest_ok hn f v
        rw [hj] at hfi; cases hfi
        exact Or.inr ⟨fs, rfl, f, hf, j.2, hc⟩
    · intro fs' hfs' f hf
      cases hfs'
      obtain ⟨i, hi, hfi⟩ := forall₂_left hF f hf
      obtain ⟨j, hj, hc⟩ := closest_ok hn f v
      rw [hj] at hfi; cases hfi
      exact ⟨j, List.mem_append_right _ hi, hc⟩
    · intro maxIter
      unfold laplacian2
      simp only [hp, hchk, hbv, hedge, hifix, hL, bind, Except.bind, pure, Except.pure]

theorem sweep_halfspace {S : ℕ → ℕ → ℕ} {bnd : List ℕ}
    (hW : ∀ i : Fin n, (∑ j : Fin n, S i j) ≠ 0) {v : Fin n → Fin d → ℝ} (c : Fin d → ℝ) {hi : ℝ}
    (hv : ∀ j, ∑ k, c k * v j k ≤ hi) (i : Fin n) :
    ∑ k, c k * sweep S (fun i => ∑ j : Fin n, S i j) bnd v i k ≤ hi := by
  unfold sweep
  by_cases hb : i.1 ∈ bnd
  · simp only [hb, if_true]; exact hv i
  · simp only [hb, if_false]
    have hWpos : (0 : ℝ) < ((∑ j : Fin n, S i j : ℕ) : ℝ) := by
      have := Nat.pos_of_ne_zero (hW i); exact_mod_cast this
    have e1 : ∑ k, c k * ((∑ j : Fin n, (S i j : ℝ) * v j k) / ((∑ j : Fin n, S i j : ℕ) : ℝ)) =
        (∑ j : Fin n, (S i j : ℝ) * ∑ k, c k * v j k) / ((∑ j : Fin n, S i j : ℕ) : ℝ) := by
      rw [Finset.sum_div]
      simp only [Finset.mul_sum, Finset.sum_div]
      rw [Finset.sum_comm]
      exact Finset.sum_congr rfl fun j _ => Finset.sum_congr rfl fun k _ => by ring
    rw [e1, div_le_iff₀ hWpos]
    push_cast
    rw [Finset.mul_sum]
    refine Finset.sum_le_sum fun j _ => ?_
    rw [mul_comm hi]
    exact mul_le_mul_of_nonneg_left (hv j) (Nat.cast_nonneg _)

/-- **C40.** On every non-empty valid triangle mesh, for every number of iterations, tolerance and
list of fixed points, `laplacian2` succeeds, returns the connectivity unchanged, does not move
boundary vertices nor (one of) the vertices closest to each fixed point, and every half-space that
contains all input vertices contains all output vertices (so they stay in the convex hull, in
particular in the bounding box). -/
theorem C40_smoothing {rk : List ℕ → ρ} (hrk : Function.Injective rk) (eps tol : ℝ)
    {ents : List (List ℕ)} (h : Simplices 3 ents) (hr : ∀ r ∈ ents, ∀ i ∈ r, i < n)
    (hne : ents ≠ []) (v : Fin n → Fin d → ℝ) (maxIter : ℕ) (pfix : Option (List (Fin d → ℝ))) :
    ∃ v', laplacian2 rk eps v ents maxIter tol pfix = .ok (v', ents) ∧
      (∀ i : Fin n, OnBoundary2 ents i → v' i = v i) ∧
      (∀ fs, pfix = some fs → ∀ f ∈ fs, ∃ i : Fin n, IsClosest v f i ∧ v' i = v i) ∧
      (∀ (c : Fin d → ℝ) (hi : ℝ), (∀ j, ∑ k, c k * v j k ≤ hi) → ∀ i, ∑ k, c k * v' i k ≤ hi) := by
  obtain ⟨S, bnd, edge, L, -, hb, -, hf, hEne, hEs, ⟨-, hL, -⟩, hrun⟩ :=
    laplacian2_run hrk eps tol h hr hne v pfix
  replace hrun := hrun maxIter
  by_cases hW : ((List.finRange n).any fun i => (∑ j : Fin n, S i j) = 0) = true
  · rw [if_pos hW] at hrun
    refine ⟨v, hrun, fun _ _ => rfl, ?_, fun c hi hv => hv⟩
    intro fs hfs f hff
    obtain ⟨i, -, hc⟩ := hf fs hfs f hff
    exact ⟨i, hc, rfl⟩
  · rw [if_neg hW] at hrun
    have hW' : ∀ i : Fin n, (∑ j : Fin n, S i j) ≠ 0 := by
      intro i hi
      refine hW (List.any_eq_true.2 ⟨i, List.mem_finRange i, ?_⟩)
      simpa using hi
    let Inv : (Fin n → Fin d → ℝ) → Prop := fun w =>
      (∀ i : Fin n, i.1 ∈ bnd → w i = v i) ∧
      (∀ (c : Fin d → ℝ) (hi : ℝ), (∀ j, ∑ k, c k * v j k ≤ hi) → ∀ i, ∑ k, c k * w i k ≤ hi)
    obtain ⟨v', hv', hInv⟩ := iterate_ok (n := n) (d := d) hEne eps tol hEs
      (sw := sweep S (fun i => ∑ j : Fin n, S i j) bnd) Inv (by
        rintro w ⟨hw1, hw2⟩
        refine ⟨fun i hi => ?_, fun c hi hv i => sweep_halfspace hW' c (hw2 c hi hv) i⟩
        funext k
        simp only [sweep, hi, if_true]
        rw [hw1 i hi]) maxIter L v hL ⟨fun _ _ => rfl, fun c hi hv => hv⟩
    rw [hv'] at hrun
    refine ⟨v', hrun, fun i hi => hInv.1 i (hb i hi), ?_, hInv.2⟩
    intro fs hfs f hff
    obtain ⟨i, hi, hc⟩ := hf fs hfs f hff
    exact ⟨i, hc, hInv.1 i hi⟩

/-- **C40 (bounding box).** -/
theorem C40_bounding_box {rk : List ℕ → ρ} (hrk : Function.Injective rk) (eps tol : ℝ)
    {ents : List (List ℕ)} (h : Simplices 3 ents) (hr : ∀ r ∈ ents, ∀ i ∈ r, i < n)
    (hne : ents ≠ []) (v : Fin n → Fin d → ℝ) (maxIter : ℕ) (pfix : Option (List (Fin d → ℝ)))
    (k : Fin d) (lo hi : ℝ) (hbox : ∀ j, lo ≤ v j k ∧ v j k ≤ hi) :
    ∃ v', laplacian2 rk eps v ents maxIter tol pfix = .ok (v', ents) ∧
      ∀ i, lo ≤ v' i k ∧ v' i k ≤ hi := by
  obtain ⟨v', hrun, -, -, hh⟩ := C40_smoothing hrk eps tol h hr hne v maxIter pfix
  refine ⟨v', hrun, fun i => ⟨?_, ?_⟩⟩
  · have := hh (fun l => if l = k then -1 else 0) (-lo) (by
      intro j
      simp only [ite_mul, neg_mul, one_mul, zero_mul, Finset.sum_ite_eq', Finset.mem_univ, if_true]
      linarith [(hbox j).1]) i
    simp only [ite_mul, neg_mul, one_mul, zero_mul, Finset.sum_ite_eq', Finset.mem_univ, if_true] at this
    linarith
  · have := hh (fun l => if l = k then 1 else 0) hi (by
      intro j
      simp only [ite_mul, one_mul, zero_mul, Finset.sum_ite_eq', Finset.mem_univ, if_true]
      exact (hbox j).2) i
    simpa using this

/-- **C40 (what one iteration does).** With `max_iter = 1` and every vertex used, a vertex that is
neither on the boundary nor closest to a fixed point moves to the average of its neighbours,
weighted by the number of common triangles. -/
theorem C40_one_iteration {rk : List ℕ → ρ} (hrk : Function.Injective rk) (eps tol : ℝ)
    {ents : List (List ℕ)} (h : Simplices 3 ents) (hr : ∀ r ∈ ents, ∀ i ∈ r, i < n)
    (hne : ents ≠ []) (hused : ∀ i < n, ∃ r ∈ ents, i ∈ r)
    (v : Fin n → Fin d → ℝ) (pfix : Option (List (Fin d → ℝ))) :
    ∃ v', laplacian2 rk eps v ents 1 tol pfix = .ok (v', ents) ∧
      ∀ i : Fin n, ¬ OnBoundary2 ents i →
        (∀ fs, pfix = some fs → ∀ f ∈ fs, ¬ IsClosest v f i) →
        ∀ k, (∑ j ∈ Finset.univ.erase i, (shared ents i j : ℝ)) * v' i k =
          ∑ j ∈ Finset.univ.erase i, (shared ents i j : ℝ) * v j k := by
  obtain ⟨S, bnd, edge, L, hS, -, hb, -, hEne, hEs, ⟨-, hL, -⟩, hrun⟩ :=
    laplacian2_run hrk eps tol h hr hne v pfix
  replace hrun := hrun 1
  have hW : ∀ i : Fin n, (∑ j : Fin n, S i j) ≠ 0 := by
    intro i hz
    obtain ⟨r, hr', hi⟩ := hused i i.2
    have hnd := (h r hr').2
    obtain ⟨a, b, c, rfl⟩ := length3 (h r hr').1
    have hex : ∃ j, j ∈ [a, b, c] ∧ i.1 ≠ j := by
      by_cases h1 : i.1 = a
      · refine ⟨b, by simp, ?_⟩; simp at hnd; omega
      · exact ⟨a, by simp, h1⟩
    obtain ⟨j, hj, hij⟩ := hex
    have hjn := hr _ hr' j hj
    have hz' := (Finset.sum_eq_zero_iff.1 hz) ⟨j, hjn⟩ (Finset.mem_univ _)
    rw [hS, if_neg hij] at hz'
    have : 0 < shared ents i j := List.countP_pos_iff.2 ⟨_, hr', decide_eq_true ⟨hi, hj⟩⟩
    simp only at hz'
    omega
  have hW' : ¬ ((List.finRange n).any fun i => (∑ j : Fin n, S i j) = 0) = true := by
    intro hc
    obtain ⟨i, -, hi⟩ := List.any_eq_true.1 hc
    exact hW i (by simpa using hi)
  rw [if_neg hW'] at hrun
  have hit : iterate eps tol edge (sweep S (fun i => ∑ j : Fin n, S i j) bnd) 1 L v =
      .ok (sweep S (fun i => ∑ j : Fin n, S i j) bnd v) := by
    obtain ⟨Ln, hLn, hlen⟩ := barLengths_ok eps (sweep S (fun i => ∑ j : Fin n, S i j) bnd v) hEs
    have hmv : ∃ mv, amaxMove L Ln = .ok mv := by
      have h0 : 0 < edge.length := List.length_pos_of_ne_nil hEne
      match L, Ln, hL, hlen with
      | l :: L, l' :: L', _, _ => exact ⟨_, rfl⟩
      | [], _, h, _ => simp at h; omega
      | _, [], _, h => simp at h; omega
    obtain ⟨mv, hmv⟩ := hmv
    unfold iterate
    simp only [hLn, hmv, bind, Except.bind, pure, Except.pure]
    split_ifs
    · rfl
    · rfl
  rw [hit] at hrun
  refine ⟨_, hrun, ?_⟩
  intro i hi hc k
  have hib : i.1 ∉ bnd := by
    intro hm
    rcases hb i hm with h1 | ⟨fs, hfs, f, hf, hin, hcl⟩
    · exact hi h1
    · exact hc fs hfs f hf hcl
  have hWi : ((∑ j : Fin n, S i j : ℕ) : ℝ) = ∑ j ∈ Finset.univ.erase i, (shared ents i j : ℝ) := by
    rw [← Finset.add_sum_erase _ _ (Finset.mem_univ i), hS, if_pos rfl, zero_add]
    push_cast
    refine Finset.sum_congr rfl fun j hj => ?_
    rw [hS, if_neg fun he => (Finset.ne_of_mem_erase hj) (Fin.ext he.symm)]
  have hSi : ∑ j : Fin n, (S i j : ℝ) * v j k = ∑ j ∈ Finset.univ.erase i, (shared ents i j : ℝ) * v j k := by
    rw [← Finset.add_sum_erase _ _ (Finset.mem_univ i), hS, if_pos rfl]
    simp only [Nat.cast_zero, zero_mul, zero_add]
    refine Finset.sum_congr rfl fun j hj => ?_
    rw [hS, if_neg fun he => (Finset.ne_of_mem_erase hj) (Fin.ext he.symm)]
  have hne0 : ((∑ j : Fin n, S i j : ℕ) : ℝ) ≠ 0 := by exact_mod_cast hW i
  simp only [sweep, hib, if_false]
  rw [hSi, hWi]
  rw [hWi] at hne0
  field_simp

/-! ### Non-vacuity: a square with its centre -/

/-- Four triangles around vertex 4. -/
def fan : List (List ℕ) := [[0, 1, 4], [1, 2, 4], [2, 3, 4], [3, 0, 4]]

example : Simplices 3 fan ∧ (∀ r ∈ fan, ∀ i ∈ r, i < 5) ∧ fan ≠ [] ∧ BoundaryConnected 5 fan ∧
    (∀ i < 5, ∃ r ∈ fan, i ∈ r) := by
  have hb : ∀ i < 4, OnBoundary2 fan i := by
    intro i hi
    interval_cases i
    · exact ⟨1, by decide, by decide⟩
    · exact ⟨0, by decide, by decide⟩
    · exact ⟨1, by decide, by decide⟩
    · exact ⟨0, by decide, by decide⟩
  refine ⟨by intro r hr; fin_cases hr <;> decide, by decide, by decide, ?_, ?_⟩
  · intro i hi
    by_cases h4 : i < 4
    · exact ⟨i, hb i h4, Relation.ReflTransGen.refl⟩
    · have : i = 4 := by omega
      subst this
      exact ⟨0, hb 0 (by omega), Relation.ReflTransGen.single ⟨by decide, by decide⟩⟩
  · intro i hi
    interval_cases i <;> decide

end SM.Laplace
