import Verif.Model.LaplaceFl
import Verif.Props.Laplace
import Verif.Props.FixedFl
import Verif.Lemmas.Binary64
import Verif.Lemmas.Sqrt64
import Mathlib.Logic.Function.Iterate
import Mathlib.Tactic.Linarith
import Mathlib.Tactic.Positivity
import Mathlib.Tactic.Ring
import Mathlib.Tactic.GCongr
import Mathlib.Tactic.NormNum
import Mathlib.Tactic.IntervalCases
import Mathlib.Tactic.FinCases

/-!
# C140: Laplacian smoothing in floating-point arithmetic
-/

namespace SM.LaplaceFl

open Np Topology FixMesh SdfFl Laplace

variable {K : Type} [Field K] [LinearOrder K] [IsStrictOrderedRing K] {n d : ℕ} {rnd rsq : K → K} {u : K} {ρ : Type} [LinearOrder ρ]

/-! ### Specification -/

/-- The average of the neighbours of vertex `i` (weighted by the number of common triangles), without rounding; vertices in `keep` do not move. -/
def smooth (ents : List (List ℕ)) (keep : List ℕ) (v : Fin n → Fin d → K) : Fin n → Fin d → K := fun i k =>
  if i.1 ∈ keep then v i k
  else (∑ j ∈ Finset.univ.erase i, (shared ents i j : K) * v j k) / ∑ j ∈ Finset.univ.erase i, (shared ents i j : K)

/-- Number of vertices that share a triangle with `i`. -/
def degree (n : ℕ) (ents : List (List ℕ)) (i : ℕ) : ℕ := ((List.finRange n).filter fun j : Fin n => i ≠ j.1 ∧ shared ents i j ≠ 0).length

/-! ### One row -/

/-- `x` approximates `e` with `c` roundings relative to `B`. -/
def Near (u : K) (c : ℕ) (x e B : K) : Prop := |x - e| ≤ ((1 + u) ^ c - 1) * B ∧ |e| ≤ B

theorem Near.nonneg {c : ℕ} {x e B : K} (h : Near u c x e B) : 0 ≤ B := (abs_nonneg e).trans h.2

theorem Near.mono (hu : 0 ≤ u) {c c' : ℕ} (hc : c ≤ c') {x e B : K} (h : Near u c x e B) : Near u c' x e B := by
  refine ⟨h.1.trans (mul_le_mul_of_nonneg_right ?_ h.nonneg), h.2⟩
  have : (1 + u) ^ c ≤ (1 + u) ^ c' := pow_le_pow_right₀ (by linarith) hc
  linarith

theorem Near.add {c : ℕ} {x e B y f C : K} (h : Near u c x e B) (h' : Near u c y f C) : Near u c (x + y) (e + f) (B + C) := by
  refine ⟨?_, (abs_add_le _ _).trans (add_le_add h.2 h'.2)⟩
  have : x + y - (e + f) = (x - e) + (y - f) := by ring
  rw [this, mul_add]
  exact (abs_add_le _ _).trans (add_le_add h.1 h'.1)

theorem Near.round (hu : 0 ≤ u) (ha : Accurate rnd u) {c : ℕ} {x e B : K} (h : Near u c x e B) : Near u (c + 1) (rnd x) e B := by
  refine ⟨?_, h.2⟩
  have h1 := ha x
  have h2 := abs_add_le (x - e) e
  rw [sub_add_cancel] at h2
  have h3 : rnd x - e = (rnd x - x) + (x - e) := by ring
  have h4 := abs_add_le (rnd x - x) (x - e)
  rw [← h3] at h4
  have h5 : ((1 + u) ^ (c + 1) - 1) * B = (1 + u) * (((1 + u) ^ c - 1) * B) + u * B := by
    rw [pow_succ]
    ring
  rw [h5]
  have h6 : (1 + u) * |x - e| ≤ (1 + u) * (((1 + u) ^ c - 1) * B) := mul_le_mul_of_nonneg_left h.1 (by linarith)
  have h7 : u * |x| ≤ u * (|x - e| + |e|) := mul_le_mul_of_nonneg_left h2 hu
  have h8 : u * |e| ≤ u * B := mul_le_mul_of_nonneg_left h.2 hu
  linarith

theorem Near.mul {c : ℕ} {x e B a : K} (ha : 0 ≤ a) (h : Near u c x e B) : Near u c (a * x) (a * e) (a * B) := by
  constructor
  · rw [← mul_sub, abs_mul, abs_of_nonneg ha, mul_left_comm]
    exact mul_le_mul_of_nonneg_left h.1 ha
  · rw [abs_mul, abs_of_nonneg ha]
    exact mul_le_mul_of_nonneg_left h.2 ha

theorem Near.zero (c : ℕ) : Near u c 0 0 0 := by
  constructor <;> simp

theorem Near.fold (hu : 0 ≤ u) (ha : Accurate rnd u) {ι : Type} {y e B : ι → K} : ∀ (l : List ι) {c : ℕ} {s a A : K}, Near u c s a A → (∀ j ∈ l, Near u c (y j) (e j) (B j)) →
    Near u (c + l.length) (l.foldl (fun s j => rnd (s + y j)) s) (a + (l.map e).sum) (A + (l.map B).sum)
  | [], c, s, a, A, h, _ => by simpa using h
  | j :: l, c, s, a, A, h, hl => by
    have := Near.fold hu ha l (c := c + 1) ((h.add (hl j (by simp))).round hu ha) fun i hi => (hl i (by simp [hi])).mono hu (by omega)
    simp only [List.foldl_cons, List.map_cons, List.sum_cons, List.length_cons]
    rw [← add_assoc, ← add_assoc, ← add_assoc, show c + l.length + 1 = c + 1 + l.length by omega]
    exact this

theorem sum_filter_ne (g : Fin n → K) (q : Fin n → Prop) [DecidablePred q] (h0 : ∀ j, ¬ q j → g j = 0) : (((List.finRange n).filter fun j => q j).map g).sum = ∑ j, g j := by
  rw [← List.sum_ofFn, List.ofFn_eq_map]
  generalize List.finRange n = l
  induction l with
  | nil => rfl
  | cons a l ih =>
    by_cases hq : q a
    · simp [hq, ih]
    · simp [hq, ih, h0 a hq]

/-- The matrix of the code: the number of common triangles, zero on the diagonal. -/
def IsShared (ents : List (List ℕ)) (S : ℕ → ℕ → ℕ) : Prop := ∀ i j, S i j = if i = j then 0 else shared ents i j

theorem row_sum {ents : List (List ℕ)} {S : ℕ → ℕ → ℕ} (hS : IsShared ents S) (i : Fin n) (x : Fin n → K) :
    (((List.finRange n).filter fun j : Fin n => S i j ≠ 0).map fun j : Fin n => (S i j : K) * x j).sum = ∑ j ∈ Finset.univ.erase i, (shared ents i j : K) * x j := by
  rw [sum_filter_ne (fun j => (S i j : K) * x j) (fun j : Fin n => S i j ≠ 0) fun j hj => by simp only [ne_eq, not_not] at hj; rw [hj, Nat.cast_zero, zero_mul],
    ← Finset.add_sum_erase _ _ (Finset.mem_univ i), hS, if_pos rfl, Nat.cast_zero, zero_mul, zero_add]
  refine Finset.sum_congr rfl fun j hj => ?_
  rw [hS, if_neg fun he => (Finset.ne_of_mem_erase hj) (Fin.ext he.symm)]

theorem weight_sum {ents : List (List ℕ)} {S : ℕ → ℕ → ℕ} (hS : IsShared ents S) (i : Fin n) :
    ((∑ j : Fin n, S i j : ℕ) : K) = ∑ j ∈ Finset.univ.erase i, (shared ents i j : K) := by
  rw [← Finset.add_sum_erase _ _ (Finset.mem_univ i), hS, if_pos rfl, zero_add]
  push_cast
  refine Finset.sum_congr rfl fun j hj => ?_
  rw [hS, if_neg fun he => (Finset.ne_of_mem_erase hj) (Fin.ext he.symm)]

theorem degree_eq {ents : List (List ℕ)} {S : ℕ → ℕ → ℕ} (hS : IsShared ents S) (i : ℕ) : ((List.finRange n).filter fun j : Fin n => S i j ≠ 0).length = degree n ents i := by
  unfold degree
  congr 1
  refine List.filter_congr fun j _ => ?_
  rw [hS]
  by_cases h : i = j <;> simp [h]

/-- One computed sweep against one exact sweep. -/
theorem sweep_near (hu : 0 ≤ u) (ha : Accurate rnd u) {ents : List (List ℕ)} {S : ℕ → ℕ → ℕ} (hS : IsShared ents S) (hW : ∀ i : Fin n, (∑ j : Fin n, S i j) ≠ 0) {bnd : List ℕ} {D : ℕ}
    (hD : ∀ i : Fin n, i.1 ∉ bnd → degree n ents i ≤ D) {c : ℕ} {B : K} {v w : Fin n → Fin d → K} (h : ∀ i k, Near u c (v i k) (w i k) B) (i : Fin n) (k : Fin d) :
    Near u (c + (D + 2)) (sweep rnd S (fun i => ∑ j : Fin n, S i j) bnd v i k) (smooth ents bnd w i k) B := by
  unfold sweep smooth
  by_cases hb : i.1 ∈ bnd
  · simp only [hb, if_true]
    exact (h i k).mono hu (by omega)
  · simp only [hb, if_false]
    have hWp : (0 : K) < ((∑ j : Fin n, S i j : ℕ) : K) := by
      have := Nat.pos_of_ne_zero (hW i)
      exact_mod_cast this
    have h1 := Near.fold hu ha ((List.finRange n).filter fun j : Fin n => S i j ≠ 0) (Near.zero (c + 1))
      fun j _ => ((h j k).mul (a := (S i j : K)) (Nat.cast_nonneg _)).round hu ha
    rw [degree_eq hS i] at h1
    have h2 := (h1.mul (a := ((∑ j : Fin n, S i j : ℕ) : K)⁻¹) (inv_nonneg.2 hWp.le)).round hu ha
    have h3 : (0 : K) + (((List.finRange n).filter fun j : Fin n => S i j ≠ 0).map fun j : Fin n => (S i j : K) * B).sum = ((∑ j : Fin n, S i j : ℕ) : K) * B := by
      rw [zero_add, row_sum hS i (fun _ => B), ← Finset.sum_mul, weight_sum hS]
    rw [h3, inv_mul_cancel_left₀ hWp.ne', zero_add, row_sum hS i (fun j => w j k), inv_mul_eq_div, inv_mul_eq_div, weight_sum hS] at h2
    unfold rowSum
    rw [weight_sum hS]
    exact h2.mono hu (by have := hD i hb; omega)

/-! ### The loop -/

theorem barLengths_ok {edge : List (List ℕ)} (eps : K) (v : Fin n → Fin d → K) (he : ∀ e ∈ edge, ∃ a b, e = [a, b] ∧ a < n ∧ b < n) :
    ∃ L, barLengths rnd rsq eps edge v = .ok L ∧ L.length = edge.length := by
  obtain ⟨L, hL⟩ := mapM_exists (l := edge) (f := fun e => (do
    let a ← item (List.ofFn v) (e.getD 0 n)
    let b ← item (List.ofFn v) (e.getD 1 n)
    let l := QualFl.len rnd rsq b a
    return if l < eps then eps else l : Except String K)) (by
      intro e hmem
      obtain ⟨a, b, rfl, ha, hb⟩ := he e hmem
      simp [item, ha, hb, bind, Except.bind, pure, Except.pure])
  exact ⟨L, hL, (mapM_forall₂.1 hL).length_eq.symm⟩

theorem iterate_ok {edge : List (List ℕ)} (hne : edge ≠ []) (eps tol : K) (he : ∀ e ∈ edge, ∃ a b, e = [a, b] ∧ a < n ∧ b < n) {sw : (Fin n → Fin d → K) → Fin n → Fin d → K} :
    ∀ (m : ℕ) (L : List K) (v), L.length = edge.length → ∃ k, iterate rnd rsq eps tol edge sw m L v = .ok (sw^[k] v) ∧ k ≤ m ∧ (0 < m → 0 < k) := by
  intro m
  induction m with
  | zero => intro L v _; exact ⟨0, rfl, le_rfl, id⟩
  | succ m ih =>
    intro L v hL
    obtain ⟨Ln, hLn, hlen⟩ := barLengths_ok (rnd := rnd) (rsq := rsq) eps (sw v) he
    have hmv : ∃ mv, amaxMove rnd L Ln = .ok mv := by
      have h0 : 0 < edge.length := List.length_pos_of_ne_nil hne
      match L, Ln, hL, hlen with
      | l :: L, l' :: L', _, _ => exact ⟨_, rfl⟩
      | [], _, h, _ => simp at h; omega
      | _, [], _, h => simp at h; omega
    obtain ⟨mv, hmv⟩ := hmv
    unfold iterate
    simp only [hLn, hmv, bind, Except.bind, pure, Except.pure]
    split_ifs
    · exact ⟨1, rfl, by omega, fun _ => one_pos⟩
    · obtain ⟨k, hk, h1, -⟩ := ih Ln (sw v) hlen
      exact ⟨k + 1, by rw [hk]; rfl, by omega, fun _ => by omega⟩

/-- The run of `laplacian2`, unfolded. -/
theorem laplacian2_run {rk : List ℕ → ρ} (hrk : Function.Injective rk) (eps tol : K) {ents : List (List ℕ)} (h : Simplices 3 ents) (hr : ∀ r ∈ ents, ∀ i ∈ r, i < n) (hne : ents ≠ [])
    (v : Fin n → Fin d → K) (pfix : Option (List (Fin d → K))) :
    ∃ (S : ℕ → ℕ → ℕ) (bnd : List ℕ), IsShared ents S ∧
      (∀ i, i ∈ bnd ↔ OnBoundary2 ents i ∨ ∃ fs, pfix = some fs ∧ ∃ f ∈ fs, FixedFl.closestNode rnd (List.ofFn v) f = .ok i) ∧
      ∀ maxIter, ∃ k, k ≤ maxIter ∧ (0 < maxIter → 0 < k) ∧ laplacian2 rnd rsq rk eps v ents maxIter tol pfix =
        .ok ((if (List.finRange n).any fun i => (∑ j : Fin n, S i j) = 0 then v else (sweep rnd S (fun i => ∑ j : Fin n, S i j) bnd)^[k] v), ents) := by
  obtain ⟨parts, hp, h1, h2⟩ := adjacency_ok h
  obtain ⟨bv, hbv, -, hm⟩ := C35_boundary_vertices2 hrk h
  have hedge := edges2_ok h
  have hchk : cooCheck n parts.flatten = .ok () := by
    unfold cooCheck
    rw [if_pos]
    rw [List.all_eq_true]
    intro e he
    obtain ⟨r, hr', he1, he2, -⟩ := h2 e he
    exact decide_eq_true ⟨hr r hr' _ he1, hr r hr' _ he2⟩
  have hn : 0 < n := by
    match ents, hne with
    | r :: rs, _ =>
      have h0 := h r (by simp)
      obtain ⟨a, b, c, rfl⟩ := length3 h0.1
      have := hr [a, b, c] (by simp) a (by simp)
      omega
  generalize hE : (ents.map fun r => [[r.getD 0 0, r.getD 1 0], [r.getD 0 0, r.getD 2 0],
    [r.getD 1 0, r.getD 2 0]]).flatten = edge at hedge
  have hEne : edge ≠ [] := by
    match ents, hne with
    | r :: rs, _ => rw [← hE]; simp
  have hEs : ∀ e ∈ edge, ∃ a b, e = [a, b] ∧ a < n ∧ b < n := by
    intro e he
    rw [← hE, List.mem_flatten] at he
    obtain ⟨l, hl, hel⟩ := he
    obtain ⟨r, hr', rfl⟩ := List.mem_map.1 hl
    obtain ⟨a, b, c, rfl⟩ := length3 (h r hr').1
    have ha := hr _ hr' a (by simp)
    have hb := hr _ hr' b (by simp)
    have hc := hr _ hr' c (by simp)
    simp only [List.mem_cons, List.not_mem_nil, or_false] at hel
    rcases hel with rfl | rfl | rfl
    · exact ⟨a, b, rfl, ha, hb⟩
    · exact ⟨a, c, rfl, ha, hc⟩
    · exact ⟨b, c, rfl, hb, hc⟩
  obtain ⟨L, hL, hLlen⟩ := barLengths_ok (rnd := rnd) (rsq := rsq) eps v hEs
  have tail : ∀ bnd maxIter, ∃ k, k ≤ maxIter ∧ (0 < maxIter → 0 < k) ∧
      (if (List.finRange n).any fun i => (∑ j : Fin n, cooEntry parts.flatten i j) = 0 then (.ok (v, ents) : Except String ((Fin n → Fin d → K) × List (List ℕ)))
        else (do
          let v' ← iterate rnd rsq eps tol edge (sweep rnd (cooEntry parts.flatten) (fun i => ∑ j : Fin n, cooEntry parts.flatten i j) bnd) maxIter L v
          return (v', ents))) =
        .ok ((if (List.finRange n).any fun i => (∑ j : Fin n, cooEntry parts.flatten i j) = 0 then v
          else (sweep rnd (cooEntry parts.flatten) (fun i => ∑ j : Fin n, cooEntry parts.flatten i j) bnd)^[k] v), ents) := by
    intro bnd maxIter
    obtain ⟨k, hk, h1, h2⟩ := iterate_ok (rnd := rnd) (rsq := rsq) hEne eps tol hEs (sw := sweep rnd (cooEntry parts.flatten) (fun i => ∑ j : Fin n, cooEntry parts.flatten i j) bnd)
      maxIter L v hLlen
    refine ⟨k, h1, h2, ?_⟩
    rw [hk]
    split_ifs <;> rfl
  cases pfix with
  | none =>
    refine ⟨cooEntry parts.flatten, bv, h1, fun i => by rw [hm]; simp, fun maxIter => ?_⟩
    obtain ⟨k, hk1, hk2, hk⟩ := tail bv maxIter
    refine ⟨k, hk1, hk2, ?_⟩
    rw [← hk]
    unfold laplacian2
    simp only [hp, hchk, hbv, hedge, hL, bind, Except.bind, pure, Except.pure]
  | some fs =>
    have hv : List.ofFn v ≠ [] := by
      intro h0
      have := congrArg List.length h0
      simp at this
      omega
    obtain ⟨ifix, hifix⟩ := mapM_exists (f := fun f => FixedFl.closestNode rnd (List.ofFn v) f) (l := fs) fun f _ => FixedFl.closestNode_ok hv f
    have hF := mapM_forall₂.1 hifix
    refine ⟨cooEntry parts.flatten, bv ++ ifix, h1, fun i => ?_, fun maxIter => ?_⟩
    · rw [List.mem_append, hm]
      refine or_congr Iff.rfl ⟨fun hi => ?_, ?_⟩
      · obtain ⟨f, hf, hfi⟩ := forall₂_right hF i hi
        exact ⟨fs, rfl, f, hf, hfi⟩
      · rintro ⟨fs', hfs', f, hf, hfi⟩
        cases hfs'
        obtain ⟨j, hj, hfj⟩ := forall₂_left hF f hf
        rw [hfi] at hfj
        cases hfj
        exact hj
    · obtain ⟨k, hk1, hk2, hk⟩ := tail (bv ++ ifix) maxIter
      refine ⟨k, hk1, hk2, ?_⟩
      rw [← hk]
      unfold laplacian2
      simp only [hp, hchk, hbv, hedge, hifix, hL, bind, Except.bind, pure, Except.pure]

theorem sweep_keep {S : ℕ → ℕ → ℕ} {W : ℕ → ℕ} {bnd : List ℕ} {v : Fin n → Fin d → K} {i : Fin n} (hi : i.1 ∈ bnd) : ∀ k, ((sweep rnd S W bnd)^[k] v) i = v i := by
  intro k
  induction k with
  | zero => rfl
  | succ k ih =>
    rw [Function.iterate_succ_apply', ← ih]
    funext c
    simp only [sweep, hi, if_true]

/-! ### C140 -/

/-- **C140 (what is kept).** In floating-point arithmetic with any unit roundoff `u < 1` and any square root: on every non-empty valid triangle mesh, for every number of iterations and every
tolerance, `laplacian2` succeeds, returns the connectivity unchanged and leaves every boundary vertex exactly where it was. A fixed point that is a vertex of the input, exactly, is a vertex of
the output, with the same index, exactly. -/
theorem C140_kept (hu : u < 1) (ha : Accurate rnd u) {rk : List ℕ → ρ} (hrk : Function.Injective rk) (eps tol : K) {ents : List (List ℕ)} (h : Simplices 3 ents)
    (hr : ∀ r ∈ ents, ∀ i ∈ r, i < n) (hne : ents ≠ []) (v : Fin n → Fin d → K) (maxIter : ℕ) (pfix : Option (List (Fin d → K))) :
    ∃ v', laplacian2 rnd rsq rk eps v ents maxIter tol pfix = .ok (v', ents) ∧ (∀ i : Fin n, OnBoundary2 ents i → v' i = v i) ∧
      ∀ fs, pfix = some fs → ∀ f ∈ fs, (∃ i, v i = f) → ∃ i, v i = f ∧ v' i = f := by
  obtain ⟨S, bnd, -, hb, hrun⟩ := laplacian2_run (rnd := rnd) (rsq := rsq) hrk eps tol h hr hne v pfix
  obtain ⟨k, -, -, hk⟩ := hrun maxIter
  refine ⟨_, hk, fun i hi => ?_, fun fs hfs f hf hi => ?_⟩
  · split_ifs
    · rfl
    · exact sweep_keep ((hb i).2 (.inl hi)) k
  · obtain ⟨j, hj, hjf⟩ := FixedFl.closestNode_mem (p := List.ofFn v) ha hu (f := f) (by obtain ⟨i, rfl⟩ := hi; simp)
    have hjn : j < n := by
      by_contra hc
      rw [List.getElem?_eq_none (by simpa using hc)] at hjf
      cases hjf
    have hvj : v ⟨j, hjn⟩ = f := by
      rw [List.getElem?_ofFn] at hjf
      simpa [hjn] using hjf
    refine ⟨⟨j, hjn⟩, hvj, ?_⟩
    split_ifs
    · exact hvj
    · rw [sweep_keep ((hb j).2 (.inr ⟨fs, hfs, f, hf, hj⟩)) k, hvj]

theorem used_ne {ents : List (List ℕ)} (h : Simplices 3 ents) (hr : ∀ r ∈ ents, ∀ i ∈ r, i < n) (hused : ∀ i < n, ∃ r ∈ ents, i ∈ r) {S : ℕ → ℕ → ℕ} (hS : IsShared ents S) (i : Fin n) :
    (∑ j : Fin n, S i j) ≠ 0 := by
  intro hz
  obtain ⟨r, hr', hi⟩ := hused i i.2
  have hnd := (h r hr').2
  obtain ⟨a, b, c, rfl⟩ := length3 (h r hr').1
  have hex : ∃ j, j ∈ [a, b, c] ∧ i.1 ≠ j := by
    by_cases h1 : i.1 = a
    · refine ⟨b, by simp, ?_⟩; simp at hnd; omega
    · exact ⟨a, by simp, h1⟩
  obtain ⟨j, hj, hij⟩ := hex
  have hjn := hr _ hr' j hj
  have hz' := (Finset.sum_eq_zero_iff.1 hz) ⟨j, hjn⟩ (Finset.mem_univ _)
  rw [hS, if_neg hij] at hz'
  have : 0 < shared ents i j := List.countP_pos_iff.2 ⟨_, hr', decide_eq_true ⟨hi, hj⟩⟩
  simp only at hz'
  omega

/-- **C140 (accuracy).** If every vertex is used, every coordinate is at most `B` in absolute value and every vertex has at most `D` neighbours, the result differs by at most
`((1 + u)^(m (D + 2)) - 1) B` in each coordinate from `m` exact smoothing sweeps with the boundary and the vertices found for the fixed points held, for some `m` between 1 and `max_iter`. -/
theorem C140_accuracy (hu : 0 ≤ u) (ha : Accurate rnd u) {rk : List ℕ → ρ} (hrk : Function.Injective rk) (eps tol : K) {ents : List (List ℕ)} (h : Simplices 3 ents)
    (hr : ∀ r ∈ ents, ∀ i ∈ r, i < n) (hne : ents ≠ []) (hused : ∀ i < n, ∃ r ∈ ents, i ∈ r) {v : Fin n → Fin d → K} {B : K} (hB : ∀ i k, |v i k| ≤ B) {D : ℕ}
    (hD : ∀ i < n, degree n ents i ≤ D) (maxIter : ℕ) (pfix : Option (List (Fin d → K))) :
    ∃ v' keep m, laplacian2 rnd rsq rk eps v ents maxIter tol pfix = .ok (v', ents) ∧
      (∀ i, i ∈ keep ↔ OnBoundary2 ents i ∨ ∃ fs, pfix = some fs ∧ ∃ f ∈ fs, FixedFl.closestNode rnd (List.ofFn v) f = .ok i) ∧ m ≤ maxIter ∧ (0 < maxIter → 0 < m) ∧
      ∀ i k, |v' i k - ((smooth ents keep)^[m] v) i k| ≤ ((1 + u) ^ (m * (D + 2)) - 1) * B := by
  obtain ⟨S, bnd, hS, hb, hrun⟩ := laplacian2_run (rnd := rnd) (rsq := rsq) hrk eps tol h hr hne v pfix
  obtain ⟨m, hm1, hm2, hm⟩ := hrun maxIter
  have hW := used_ne h hr hused hS
  rw [if_neg (fun hc => by obtain ⟨i, -, hi⟩ := List.any_eq_true.1 hc; exact hW i (by simpa using hi))] at hm
  refine ⟨_, bnd, m, hm, hb, hm1, hm2, fun i k => ?_⟩
  have main : ∀ m i k, Near u (m * (D + 2)) (((sweep rnd S (fun i => ∑ j : Fin n, S i j) bnd)^[m] v) i k) (((smooth ents bnd)^[m] v) i k) B := by
    intro m
    induction m with
    | zero => exact fun i k => ⟨by simp, hB i k⟩
    | succ m ih =>
      intro i k
      rw [Function.iterate_succ_apply', Function.iterate_succ_apply', Nat.succ_mul]
      exact sweep_near hu ha hS hW (fun i _ => hD i i.2) ih i k
  exact (main m i k).1

/-- Exact smoothing stays in the range of each coordinate. -/
theorem smooth_box {ents : List (List ℕ)} {keep : List ℕ} (hW : ∀ i : Fin n, (0 : K) < ∑ j ∈ Finset.univ.erase i, (shared ents i j : K)) {k : Fin d} {lo hi : K} {v : Fin n → Fin d → K}
    (hv : ∀ j, lo ≤ v j k ∧ v j k ≤ hi) (i : Fin n) : lo ≤ smooth ents keep v i k ∧ smooth ents keep v i k ≤ hi := by
  unfold smooth
  by_cases hb : i.1 ∈ keep
  · simp only [hb, if_true]
    exact hv i
  · simp only [hb, if_false]
    rw [le_div_iff₀ (hW i), div_le_iff₀ (hW i), Finset.mul_sum, Finset.mul_sum]
    constructor
    · refine Finset.sum_le_sum fun j _ => ?_
      rw [mul_comm]
      exact mul_le_mul_of_nonneg_left (hv j).1 (Nat.cast_nonneg _)
    · refine Finset.sum_le_sum fun j _ => ?_
      rw [mul_comm hi]
      exact mul_le_mul_of_nonneg_left (hv j).2 (Nat.cast_nonneg _)

/-- **C140 (range).** The vertices leave the range of the coordinates of the input by at most the rounding error. -/
theorem C140_range (hu : 0 ≤ u) (ha : Accurate rnd u) {rk : List ℕ → ρ} (hrk : Function.Injective rk) (eps tol : K) {ents : List (List ℕ)} (h : Simplices 3 ents)
    (hr : ∀ r ∈ ents, ∀ i ∈ r, i < n) (hne : ents ≠ []) (hused : ∀ i < n, ∃ r ∈ ents, i ∈ r) {v : Fin n → Fin d → K} {B : K} (hB : ∀ i k, |v i k| ≤ B) {D : ℕ}
    (hD : ∀ i < n, degree n ents i ≤ D) (maxIter : ℕ) (pfix : Option (List (Fin d → K))) (k : Fin d) {lo hi : K} (hbox : ∀ j, lo ≤ v j k ∧ v j k ≤ hi) :
    ∃ v', laplacian2 rnd rsq rk eps v ents maxIter tol pfix = .ok (v', ents) ∧
      ∀ i, lo - ((1 + u) ^ (maxIter * (D + 2)) - 1) * B ≤ v' i k ∧ v' i k ≤ hi + ((1 + u) ^ (maxIter * (D + 2)) - 1) * B := by
  obtain ⟨v', keep, m, hrun, -, hm, -, hacc⟩ := C140_accuracy (rsq := rsq) hu ha hrk eps tol h hr hne hused hB hD maxIter pfix
  refine ⟨v', hrun, fun i => ?_⟩
  obtain ⟨parts, -, hS, -⟩ := adjacency_ok h
  have hW : ∀ i : Fin n, (0 : K) < ∑ j ∈ Finset.univ.erase i, (shared ents i j : K) := fun i => by
    rw [← weight_sum hS]
    have := Nat.pos_of_ne_zero (used_ne h hr hused hS i)
    exact_mod_cast this
  have hin : ∀ m i, lo ≤ ((smooth ents keep)^[m] v) i k ∧ ((smooth ents keep)^[m] v) i k ≤ hi := by
    intro m
    induction m with
    | zero => exact hbox
    | succ m ih =>
      intro i
      rw [Function.iterate_succ_apply']
      exact smooth_box hW ih i
  have h1 := abs_le.1 (hacc i k)
  have h2 := hin m i
  have hBn : 0 ≤ B := (abs_nonneg _).trans (hB i k)
  have h3 : ((1 + u) ^ (m * (D + 2)) - 1) * B ≤ ((1 + u) ^ (maxIter * (D + 2)) - 1) * B := by
    refine mul_le_mul_of_nonneg_right ?_ hBn
    have : (1 + u) ^ (m * (D + 2)) ≤ (1 + u) ^ (maxIter * (D + 2)) := pow_le_pow_right₀ (by linarith) (Nat.mul_le_mul_right _ hm)
    linarith
  constructor <;> linarith [h1.1, h1.2, h2.1, h2.2]

/-! ### A point that leaves the box -/

/-- A fan of seven triangles around vertex 7, two units in the last place wide. -/
def fan : List (List ℕ) := [[7, 0, 6], [7, 6, 5], [7, 5, 4], [7, 4, 3], [7, 3, 2], [7, 2, 1], [7, 1, 0]]

/-- `3 / 7` as a double. -/
def x0 : ℚ := 7720456504063707 / 18014398509481984

/-- The distance to the next double. -/
def ulp : ℚ := 1 / 18014398509481984

def fanPts : Fin 8 → Fin 2 → ℚ := ![![x0 + 2 * ulp, 0], ![x0, -3], ![x0, -2], ![x0, -1], ![x0, 1], ![x0, 2], ![x0, 3], ![x0 + ulp, 0]]

/-- Twice the signed area of a triangle of the fan. -/
def area2 : List ℕ → ℚ
  | [a, b, c] =>
    let p (i : ℕ) (k : Fin 2) := if h : i < 8 then fanPts ⟨i, h⟩ k else 0
    (p b 0 - p a 0) * (p c 1 - p a 1) - (p c 0 - p a 0) * (p b 1 - p a 1)
  | _ => 0

theorem fan_interior : ¬ OnBoundary2 fan 7 := by
  rintro ⟨w, hw, hs⟩
  have : w ≤ 7 := by
    by_contra hc
    have h0 : shared fan 7 w = 0 := by
      unfold shared
      rw [List.countP_eq_zero]
      intro r hr
      fin_cases hr <;> simp <;> omega
    omega
  revert hs hw
  interval_cases w <;> decide

theorem fan_boundary : ∀ j, j < 7 → OnBoundary2 fan j := by
  intro j hj
  interval_cases j
  exacts [⟨1, by decide⟩, ⟨0, by decide⟩, ⟨1, by decide⟩, ⟨2, by decide⟩, ⟨3, by decide⟩, ⟨4, by decide⟩, ⟨5, by decide⟩]

/-- The new position of a vertex does not depend on the old one. -/
theorem sweep_congr {ents : List (List ℕ)} {S : ℕ → ℕ → ℕ} (hS : IsShared ents S) {bnd : List ℕ} {v w : Fin n → Fin d → K} {i : Fin n} (hi : i.1 ∉ bnd) (h : ∀ j, j ≠ i → w j = v j) (k : Fin d) :
    sweep rnd S (fun i => ∑ j : Fin n, S i j) bnd w i k =
      sweep rnd (fun i j => if i = j then 0 else shared ents i j) (fun i => ∑ j : Fin n, if i = j.1 then 0 else shared ents i j) [] v i k := by
  have hSe : S = fun i j => if i = j then 0 else shared ents i j := by
    funext i j
    exact hS i j
  subst hSe
  simp only [sweep, hi, if_false, List.not_mem_nil]
  congr 2
  unfold rowSum
  refine List.foldl_ext _ _ _ fun s j hj => ?_
  have hji : j ≠ i := by
    rintro rfl
    simp at hj
  show rnd (s + rnd (_ * w j k)) = _
  rw [h j hji]

theorem fan_value : sweep Fl.binary64 (fun i j => if i = j then 0 else shared fan i j) (fun i => ∑ j : Fin 8, if i = j.1 then 0 else shared fan i j) [] fanPts 7 0 = x0 - ulp := by
  decide +kernel

theorem fan_left : ∀ j, x0 - ulp < fanPts j 0 := by decide +kernel

/-- **C140 (the bounding box).** With double-precision numbers a vertex can leave the bounding box of the mesh: in a valid mesh with triangles of positive area the interior vertex is moved to the left of
all vertices of the input, for every number of iterations and every tolerance. The rounding error in `C140_range` cannot be left out. -/
theorem C140_leaves_box (rsq : ℚ → ℚ) {rk : List ℕ → ρ} (hrk : Function.Injective rk) (eps tol : ℚ) {maxIter : ℕ} (hm : 0 < maxIter) :
    Simplices 3 fan ∧ (∀ r ∈ fan, ∀ i ∈ r, i < 8) ∧ (∀ i < 8, ∃ r ∈ fan, i ∈ r) ∧ (∀ r ∈ fan, 0 < area2 r) ∧ (∀ i k, Fl.binary64 (fanPts i k) = fanPts i k) ∧
      ∃ v', laplacian2 Fl.binary64 rsq rk eps fanPts fan maxIter tol none = .ok (v', fan) ∧ ∀ j, v' 7 0 < fanPts j 0 := by
  have hs : Simplices 3 fan := by unfold Simplices; decide
  have hr : ∀ r ∈ fan, ∀ i ∈ r, i < 8 := by decide
  have hused : ∀ i < 8, ∃ r ∈ fan, i ∈ r := by decide
  refine ⟨hs, hr, hused, by decide +kernel, by decide +kernel, ?_⟩
  obtain ⟨S, bnd, hS, hb, hrun⟩ := laplacian2_run (rnd := Fl.binary64) (rsq := rsq) hrk eps tol hs hr (by decide) fanPts none
  obtain ⟨m, -, hm2, hm⟩ := hrun maxIter
  have hW := used_ne hs hr hused hS
  rw [if_neg (fun hc => by obtain ⟨i, -, hi⟩ := List.any_eq_true.1 hc; exact hW i (by simpa using hi))] at hm
  refine ⟨_, hm, ?_⟩
  obtain ⟨m, rfl⟩ := Nat.exists_eq_succ_of_ne_zero (hm2 ‹_›).ne'
  have h6 : (7 : ℕ) ∉ bnd := fun hc => by
    rcases (hb 7).1 hc with h | ⟨fs, h, -⟩
    · exact fan_interior h
    · cases h
  have hkeep : ∀ j : Fin 8, j ≠ 7 → ((sweep Fl.binary64 S (fun i => ∑ j : Fin 8, S i j) bnd)^[m] fanPts) j = fanPts j := fun j hj =>
    sweep_keep ((hb j).2 (.inl (fan_boundary j (by have := j.2; have : j.1 ≠ 7 := fun h => hj (Fin.ext h); omega)))) m
  rw [Function.iterate_succ_apply']
  generalize (sweep Fl.binary64 S (fun i => ∑ j : Fin 8, S i j) bnd)^[m] fanPts = w at hkeep
  rw [sweep_congr (bnd := bnd) hS (i := 7) h6 hkeep 0, fan_value]
  exact fan_left

/-- The hypotheses of `C140_accuracy` and `C140_range` are met by that mesh with double-precision numbers: seven neighbours, coordinates at most 3. -/
example : Accurate Fl.binary64 (1 / 9007199254740992) ∧ Simplices 3 fan ∧ (∀ r ∈ fan, ∀ i ∈ r, i < 8) ∧ (∀ i < 8, ∃ r ∈ fan, i ∈ r) ∧ (∀ i k, |fanPts i k| ≤ 3) ∧ (∀ i < 8, degree 8 fan i ≤ 7) ∧
    ∃ i, fanPts i = ![x0, 1] :=
  ⟨fun q => Fl.binary64_error q, by unfold Simplices; decide, by decide, by decide, by decide +kernel, by decide +kernel, 4, rfl⟩

end SM.LaplaceFl
