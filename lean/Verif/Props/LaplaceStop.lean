import Verif.Props.Laplace
import Mathlib.Analysis.InnerProductSpace.PiL2
import Mathlib.Topology.Algebra.Order.Field
import Mathlib.Analysis.SpecificLimits.Basic
import Mathlib.Tactic.NormNum
import Mathlib.Tactic.Linarith
import Mathlib.Tactic.IntervalCases
import Mathlib.Tactic.FinCases

/-!
# C114, C115: when Laplacian smoothing stops, and what it converges to
-/

namespace SM.Laplace

open Np Topology FixMesh

variable {ρ : Type} [LinearOrder ρ] {n d : ℕ}

/-! ### Specification -/

/-- Length of the bar between two vertices, cut off below at `eps`. -/
noncomputable def bar (eps : ℝ) (u : Fin n → Fin d → ℝ) (a b : Fin n) : ℝ :=
  max (Real.sqrt (∑ k, (u a k - u b k) ^ 2)) eps

/-- One sweep of the smoother: fixed vertices stay, every other vertex goes to the average of its
neighbours, weighted by the number of common triangles. -/
structure Sweep (ents : List (List ℕ)) (fixed : Fin n → Prop) (u u' : Fin n → Fin d → ℝ) : Prop where
  keep : ∀ i, fixed i → u' i = u i
  average : ∀ i, ¬ fixed i → ∀ k, (∑ j ∈ Finset.univ.erase i, (shared ents i j : ℝ)) * u' i k =
    ∑ j ∈ Finset.univ.erase i, (shared ents i j : ℝ) * u j k

/-! ### The loop -/

/-- A vertex given by number. -/
noncomputable def at' (v : Fin n → Fin d → ℝ) (a : ℕ) : Fin d → ℝ := if h : a < n then v ⟨a, h⟩ else 0

/-- Length of a row of the edge table. -/
noncomputable def rowBar (eps : ℝ) (v : Fin n → Fin d → ℝ) (e : List ℕ) : ℝ :=
  max (Real.sqrt (∑ k, (at' v (e.getD 0 n) k - at' v (e.getD 1 n) k) ^ 2)) eps

theorem rowBar_pair (eps : ℝ) (v : Fin n → Fin d → ℝ) (a b : Fin n) :
    rowBar eps v [a.1, b.1] = bar eps v a b := by
  simp [rowBar, bar, at', a.2, b.2]

theorem bar_comm (eps : ℝ) (v : Fin n → Fin d → ℝ) (a b : Fin n) : bar eps v a b = bar eps v b a := by
  unfold bar
  congr 2
  exact Finset.sum_congr rfl fun k _ => by ring

theorem bar_pos {eps : ℝ} (he : 0 < eps) (v : Fin n → Fin d → ℝ) (a b : Fin n) : 0 < bar eps v a b :=
  lt_of_lt_of_le he (le_max_right _ _)

theorem barLengths_eq {edge : List (List ℕ)} (eps : ℝ) (v : Fin n → Fin d → ℝ)
    (he : ∀ e ∈ edge, ∃ a b, e = [a, b] ∧ a < n ∧ b < n) :
    barLengths eps edge v = .ok (edge.map (rowBar eps v)) := by
  unfold barLengths
  apply mapM_ok
  intro e hmem
  obtain ⟨a, b, rfl, ha, hb⟩ := he e hmem
  simp [item, ha, hb, bind, Except.bind, pure, Except.pure, rowBar, at']

theorem foldl_max_lt {β : Type} (g : β → ℝ) (tol : ℝ) (l : List β) (m : ℝ) :
    l.foldl (fun m x => max m (g x)) m < tol ↔ m < tol ∧ ∀ x ∈ l, g x < tol := by
  induction l generalizing m with
  | nil => simp
  | cons x l ih =>
    rw [List.foldl_cons, ih]
    simp only [max_lt_iff, List.mem_cons, forall_eq_or_imp, and_assoc]

theorem amaxMove_map {edge : List (List ℕ)} (hne : edge ≠ []) (f g : List ℕ → ℝ) (tol : ℝ) :
    ∃ m, amaxMove (edge.map f) (edge.map g) = .ok m ∧
      (m < tol ↔ ∀ e ∈ edge, (g e - f e) / g e < tol) := by
  match edge, hne with
  | e :: es, _ =>
    refine ⟨_, rfl, ?_⟩
    rw [foldl_max_lt (g := fun x : ℝ × ℝ => (x.2 - x.1) / x.2)]
    have hz : (es.map f).zip (es.map g) = es.map fun e => (f e, g e) := by
      simp [List.zip_map', Function.comp_def]
    rw [hz]
    simp

/-- No row grows by `tol` of its new length or more. -/
def Calm (eps tol : ℝ) (edge : List (List ℕ)) (u u' : Fin n → Fin d → ℝ) : Prop :=
  ∀ e ∈ edge, (rowBar eps u' e - rowBar eps u e) / rowBar eps u' e < tol

theorem iterate_spec {edge : List (List ℕ)} (hne : edge ≠ []) (eps tol : ℝ)
    (he : ∀ e ∈ edge, ∃ a b, e = [a, b] ∧ a < n ∧ b < n)
    (sw : (Fin n → Fin d → ℝ) → Fin n → Fin d → ℝ) :
    ∀ (m : ℕ) (v : Fin n → Fin d → ℝ), ∃ k ≤ m,
      iterate eps tol edge sw m (edge.map (rowBar eps v)) v = .ok (sw^[k] v) ∧
      (∀ j, j + 1 < k → ¬ Calm eps tol edge (sw^[j] v) (sw^[j + 1] v)) ∧
      (k < m → 0 < k ∧ Calm eps tol edge (sw^[k - 1] v) (sw^[k] v)) := by
  intro m
  induction m with
  | zero => intro v; exact ⟨0, le_refl _, rfl, by omega, by omega⟩
  | succ m ih =>
    intro v
    obtain ⟨mv, hmv, hlt⟩ := amaxMove_map hne (rowBar eps v) (rowBar eps (sw v)) tol
    unfold iterate
    simp only [barLengths_eq eps (sw v) he, hmv, bind, Except.bind, pure, Except.pure]
    split_ifs with hc
    · exact ⟨1, by omega, rfl, by omega, fun _ => ⟨by omega, hlt.1 hc⟩⟩
    · obtain ⟨k, hk, hrun, h1, h2⟩ := ih (sw v)
      by_cases hk0 : k = 0
      · subst hk0
        refine ⟨1, by omega, hrun, by omega, fun h => ?_⟩
        exact absurd (h2 (by omega)).1 (by omega)
      refine ⟨k + 1, by omega, ?_, ?_, ?_⟩
      · rw [hrun, Function.iterate_succ_apply]
      · intro j hj
        cases j with
        | zero => exact fun h => hc (hlt.2 h)
        | succ j =>
          have := h1 j (by omega)
          rwa [← Function.iterate_succ_apply, ← Function.iterate_succ_apply] at this
      · intro hkm
        obtain ⟨h3, h4⟩ := h2 (by omega)
        refine ⟨by omega, ?_⟩
        obtain ⟨k, rfl⟩ : ∃ q, k = q + 1 := ⟨k - 1, by omega⟩
        simp only [Nat.add_sub_cancel] at h4 ⊢
        rwa [← Function.iterate_succ_apply, ← Function.iterate_succ_apply] at h4

/-- The whole call when every vertex is used: a sweep `sw`, its fixed vertices, and the loop. -/
theorem laplacian2_loop {rk : List ℕ → ρ} (hrk : Function.Injective rk) {eps : ℝ} (heps : 0 < eps)
    (tol : ℝ) {ents : List (List ℕ)} (h : Simplices 3 ents) (hr : ∀ r ∈ ents, ∀ i ∈ r, i < n)
    (hne : ents ≠ []) (hused : ∀ i < n, ∃ r ∈ ents, i ∈ r)
    (v : Fin n → Fin d → ℝ) (pfix : Option (List (Fin d → ℝ))) :
    ∃ fixed : Fin n → Prop,
      (∀ i : Fin n, OnBoundary2 ents i → fixed i) ∧
      (∀ fs, pfix = some fs → ∀ f ∈ fs, ∃ i, fixed i ∧ IsClosest v f i) ∧
      (∀ i, fixed i → OnBoundary2 ents i ∨ ∃ fs, pfix = some fs ∧ ∃ f ∈ fs, IsClosest v f i) ∧
      ∃ u : ℕ → Fin n → Fin d → ℝ, u 0 = v ∧ (∀ j, Sweep ents fixed (u j) (u (j + 1))) ∧
      ∀ maxIter, ∃ k ≤ maxIter, laplacian2 rk eps v ents maxIter tol pfix = .ok (u k, ents) ∧
        (∀ j, j + 1 < k → ∃ a b : Fin n, Adjacent ents a b ∧
          tol * bar eps (u (j + 1)) a b ≤ bar eps (u (j + 1)) a b - bar eps (u j) a b) ∧
        (k < maxIter → 0 < k ∧ ∀ a b : Fin n, Adjacent ents a b →
          bar eps (u k) a b - bar eps (u (k - 1)) a b < tol * bar eps (u k) a b) := by
  obtain ⟨S, bnd, edge, L, hS, hb1, hb2, hf, hEne, hEs, ⟨hL, -, hA1, hA2⟩, hrun⟩ :=
    laplacian2_run hrk eps tol h hr hne v pfix
  have hW : ∀ i : Fin n, (∑ j : Fin n, S i j) ≠ 0 := by
    intro i hz
    obtain ⟨r, hr', hi⟩ := hused i i.2
    have hnd := (h r hr').2
    obtain ⟨a, b, c, rfl⟩ := length3 (h r hr').1
    have hex : ∃ j, j ∈ [a, b, c] ∧ i.1 ≠ j := by
      by_cases h1 : i.1 = a
      · refine ⟨b, by simp, ?_⟩; simp at hnd; omega
      · exact ⟨a, by simp, h1⟩
    obtain ⟨j, hj, hij⟩ := hex
    have hjn := hr _ hr' j hj
    have hz' := (Finset.sum_eq_zero_iff.1 hz) ⟨j, hjn⟩ (Finset.mem_univ _)
    rw [hS, if_neg hij] at hz'
    have : 0 < shared ents i j := List.countP_pos_iff.2 ⟨_, hr', decide_eq_true ⟨hi, hj⟩⟩
    simp only at hz'
    omega
  have hW' : ¬ ((List.finRange n).any fun i => (∑ j : Fin n, S i j) = 0) = true := by
    intro hc
    obtain ⟨i, -, hi⟩ := List.any_eq_true.1 hc
    exact hW i (by simpa using hi)
  simp only [if_neg hW', show L = edge.map (rowBar eps v) by
    rw [barLengths_eq eps v hEs] at hL; exact (Except.ok.inj hL).symm] at hrun
  generalize hsw : sweep S (fun i => ∑ j : Fin n, S i j) bnd = sw at hrun
  have hSw : ∀ w : Fin n → Fin d → ℝ, Sweep ents (fun i => i.1 ∈ bnd) w (sw w) := by
    intro w
    subst hsw
    refine ⟨fun i hi => ?_, fun i hib k => ?_⟩
    · funext k
      simp [sweep, hi]
    · have hWi : ((∑ j : Fin n, S i j : ℕ) : ℝ) =
          ∑ j ∈ Finset.univ.erase i, (shared ents i j : ℝ) := by
        rw [← Finset.add_sum_erase _ _ (Finset.mem_univ i), hS, if_pos rfl, zero_add]
        push_cast
        refine Finset.sum_congr rfl fun j hj => ?_
        rw [hS, if_neg fun he => (Finset.ne_of_mem_erase hj) (Fin.ext he.symm)]
      have hSi : ∑ j : Fin n, (S i j : ℝ) * w j k =
          ∑ j ∈ Finset.univ.erase i, (shared ents i j : ℝ) * w j k := by
        rw [← Finset.add_sum_erase _ _ (Finset.mem_univ i), hS, if_pos rfl]
        simp only [Nat.cast_zero, zero_mul, zero_add]
        refine Finset.sum_congr rfl fun j hj => ?_
        rw [hS, if_neg fun he => (Finset.ne_of_mem_erase hj) (Fin.ext he.symm)]
      have hne0 : ((∑ j : Fin n, S i j : ℕ) : ℝ) ≠ 0 := by exact_mod_cast hW i
      simp only [sweep, hib, if_false]
      rw [hSi, hWi]
      rw [hWi] at hne0
      field_simp
  refine ⟨fun i => i.1 ∈ bnd, fun i hi => hb1 i hi, hf, ?_, fun j => sw^[j] v, rfl, ?_, fun maxIter => ?_⟩
  · intro i hi
    rcases hb2 i hi with h1 | ⟨fs, hfs, f, hf', hin, hcl⟩
    · exact Or.inl h1
    · exact Or.inr ⟨fs, hfs, f, hf', hcl⟩
  · intro j
    simp only [Function.iterate_succ_apply']
    exact hSw _
  obtain ⟨k, hk, hit, hc1, hc2⟩ := iterate_spec hEne eps tol hEs sw maxIter v
  refine ⟨k, hk, ?_, ?_, ?_⟩
  · have hrun := hrun maxIter
    rw [hit] at hrun
    exact hrun
  · intro j hj
    have := hc1 j hj
    unfold Calm at this
    push Not at this
    obtain ⟨e, hmem, hge⟩ := this
    obtain ⟨a, b, rfl, ha, hb⟩ := hEs e hmem
    refine ⟨⟨a, ha⟩, ⟨b, hb⟩, hA1 a b hmem, ?_⟩
    have hp := fun w : Fin n → Fin d → ℝ => rowBar_pair eps w ⟨a, ha⟩ ⟨b, hb⟩
    simp only at hp
    rw [hp, hp, le_div_iff₀ (bar_pos heps _ _ _)] at hge
    exact hge
  · intro hkm
    obtain ⟨h0, hcalm⟩ := hc2 hkm
    refine ⟨h0, fun a b hab => ?_⟩
    rcases hA2 a b hab with hm | hm
    · have := hcalm _ hm
      rw [rowBar_pair, rowBar_pair, div_lt_iff₀ (bar_pos heps _ _ _)] at this
      exact this
    · have := hcalm _ hm
      rw [rowBar_pair, rowBar_pair, div_lt_iff₀ (bar_pos heps _ _ _)] at this
      rw [bar_comm eps _ a b, bar_comm eps (_) a b]
      exact this

/-! ### Decay -/

/-- Number of common triangles with the neighbours: the weight of a vertex. -/
def weight (ents : List (List ℕ)) (i : Fin n) : ℝ := ∑ j ∈ Finset.univ.erase i, (shared ents i j : ℝ)

open Classical in
/-- Part of the weight that has not reached a fixed vertex after `t` sweeps. -/
noncomputable def remain (ents : List (List ℕ)) (fixed : Fin n → Prop) : ℕ → Fin n → ℝ
  | 0 => fun _ => 1
  | t + 1 => fun i => if fixed i then 0 else
      (∑ j ∈ Finset.univ.erase i, (shared ents i j : ℝ) * remain ents fixed t j) / weight ents i

/-- Every vertex is connected to a fixed one along edges of the mesh. -/
def FixedConnected (ents : List (List ℕ)) (fixed : Fin n → Prop) : Prop :=
  ∀ i : Fin n, ∃ b : Fin n, fixed b ∧
    Relation.ReflTransGen (fun a b : Fin n => Adjacent ents a b) i b

section decay
variable {ents : List (List ℕ)} {fixed : Fin n → Prop}

theorem remain_range (hw : ∀ i : Fin n, 0 < weight ents i) (t : ℕ) (i : Fin n) :
    0 ≤ remain ents fixed t i ∧ remain ents fixed t i ≤ 1 := by
  induction t generalizing i with
  | zero => simp [remain]
  | succ t ih =>
    unfold remain
    split_ifs
    · simp
    · refine ⟨div_nonneg (Finset.sum_nonneg fun j _ => mul_nonneg (Nat.cast_nonneg _) (ih j).1)
        (hw i).le, ?_⟩
      rw [div_le_one (hw i)]
      refine Finset.sum_le_sum fun j _ => ?_
      exact mul_le_of_le_one_right (Nat.cast_nonneg _) (ih j).2

theorem remain_succ_le (hw : ∀ i : Fin n, 0 < weight ents i) (t : ℕ) (i : Fin n) :
    remain ents fixed (t + 1) i ≤ remain ents fixed t i := by
  induction t generalizing i with
  | zero => exact (remain_range hw 1 i).2
  | succ t ih =>
    rw [remain, remain]
    simp only
    split_ifs
    · exact le_refl _
    · exact div_le_div_of_nonneg_right (Finset.sum_le_sum fun j _ =>
        mul_le_mul_of_nonneg_left (ih j) (Nat.cast_nonneg _)) (hw i).le

theorem remain_antitone (hw : ∀ i : Fin n, 0 < weight ents i) {s t : ℕ} (h : s ≤ t) (i : Fin n) :
    remain ents fixed t i ≤ remain ents fixed s i := by
  induction h with
  | refl => exact le_refl _
  | step _ ih => exact (remain_succ_le hw _ i).trans ih

theorem remain_lt_one (hw : ∀ i : Fin n, 0 < weight ents i) {i b : Fin n} (hb : fixed b)
    (hp : Relation.ReflTransGen (fun a b : Fin n => Adjacent ents a b) i b) :
    ∃ t, remain ents fixed t i < 1 := by
  induction hp using Relation.ReflTransGen.head_induction_on with
  | refl => exact ⟨1, by simp [remain, hb]⟩
  | head hstep _ ih =>
    rename_i a c _
    obtain ⟨t, ht⟩ := ih
    refine ⟨t + 1, ?_⟩
    unfold remain
    split_ifs
    · exact one_pos
    · rw [div_lt_one (hw a)]
      refine Finset.sum_lt_sum (fun j _ => mul_le_of_le_one_right (Nat.cast_nonneg _)
        (remain_range hw t j).2) ⟨c, Finset.mem_erase.2 ⟨?_, Finset.mem_univ _⟩, ?_⟩
      · exact fun he => hstep.1 (congrArg Fin.val he).symm
      · have : (0 : ℝ) < (shared ents a c : ℝ) := by exact_mod_cast hstep.2
        nlinarith

theorem remain_uniform (hw : ∀ i : Fin n, 0 < weight ents i) (hc : FixedConnected ents fixed) :
    ∃ (T : ℕ) (c : ℝ), 0 ≤ c ∧ c < 1 ∧ ∀ i, remain ents fixed T i ≤ c := by
  have hex : ∀ i : Fin n, ∃ t, remain ents fixed t i < 1 := fun i => by
    obtain ⟨b, hb, hp⟩ := hc i
    exact remain_lt_one hw hb hp
  choose t ht using hex
  have hT : ∀ i, remain ents fixed (Finset.univ.sup t) i < 1 := fun i =>
    (remain_antitone hw (Finset.le_sup (Finset.mem_univ i)) i).trans_lt (ht i)
  by_cases hn : Nonempty (Fin n)
  · obtain ⟨m, -, hm⟩ := Finset.exists_max_image Finset.univ
      (fun i : Fin n => remain ents fixed (Finset.univ.sup t) i) Finset.univ_nonempty
    exact ⟨_, _, (remain_range hw _ m).1, hT m, fun i => hm i (Finset.mem_univ i)⟩
  · exact ⟨0, 0, le_refl _, one_pos, fun i => absurd ⟨i⟩ hn⟩

/-- A quantity that vanishes on the fixed vertices and is averaged on the others tends to zero. -/
theorem decay (hw : ∀ i : Fin n, 0 < weight ents i) (hc : FixedConnected ents fixed)
    {e : ℕ → Fin n → ℝ} (h0 : ∀ j i, fixed i → e j i = 0)
    (hav : ∀ j i, ¬ fixed i → weight ents i * e (j + 1) i =
      ∑ l ∈ Finset.univ.erase i, (shared ents i l : ℝ) * e j l) {δ : ℝ} (hδ : 0 < δ) :
    ∃ M, ∀ m ≥ M, ∀ i, |e m i| < δ := by
  have key : ∀ (B : ℝ), 0 ≤ B → ∀ j, (∀ i, |e j i| ≤ B) → ∀ t i,
      |e (j + t) i| ≤ B * remain ents fixed t i := by
    intro B hB j hj t
    induction t with
    | zero => intro i; simpa [remain] using hj i
    | succ t ih =>
      intro i
      by_cases hf : fixed i
      · rw [h0 _ _ hf]; simp [remain, hf]
      · have h1 := hav (j + t) i hf
        have h2 : e (j + (t + 1)) i = (∑ l ∈ Finset.univ.erase i, (shared ents i l : ℝ) * e (j + t) l) /
            weight ents i := by
          rw [eq_div_iff (hw i).ne', mul_comm]; exact h1
        rw [h2, abs_div, abs_of_pos (hw i)]
        unfold remain
        rw [if_neg hf, ← mul_div_assoc]
        refine div_le_div_of_nonneg_right ((Finset.abs_sum_le_sum_abs _ _).trans ?_) (hw i).le
        rw [Finset.mul_sum]
        refine Finset.sum_le_sum fun l _ => ?_
        rw [abs_mul, Nat.abs_cast]
        have := mul_le_mul_of_nonneg_left (ih l) (Nat.cast_nonneg (α := ℝ) (shared ents i l))
        linarith
  obtain ⟨T, c, hc0, hc1, hT⟩ := remain_uniform hw hc
  obtain ⟨B, hB0, hB⟩ : ∃ B : ℝ, 0 ≤ B ∧ ∀ i, |e 0 i| ≤ B :=
    ⟨∑ i, |e 0 i|, Finset.sum_nonneg fun _ _ => abs_nonneg _, fun i =>
      Finset.single_le_sum (f := fun i => |e 0 i|) (fun _ _ => abs_nonneg _) (Finset.mem_univ i)⟩
  have hq : ∀ q i, |e (q * T) i| ≤ c ^ q * B := by
    intro q
    induction q with
    | zero => intro i; simpa using hB i
    | succ q ih =>
      intro i
      have h1 := key (c ^ q * B) (mul_nonneg (pow_nonneg hc0 _) hB0) (q * T) ih T i
      rw [show (q + 1) * T = q * T + T by ring]
      refine h1.trans ?_
      rw [pow_succ]
      have := mul_le_mul_of_nonneg_left (hT i) (mul_nonneg (pow_nonneg hc0 q) hB0)
      linarith
  obtain ⟨q, hq'⟩ : ∃ q : ℕ, c ^ q * B < δ := by
    obtain ⟨q, hq'⟩ := exists_pow_lt_of_lt_one (show 0 < δ / (B + 1) by positivity) hc1
    refine ⟨q, ?_⟩
    rw [lt_div_iff₀ (by positivity)] at hq'
    have := pow_nonneg hc0 q
    nlinarith
  refine ⟨q * T, fun m hm i => ?_⟩
  obtain ⟨t, rfl⟩ := Nat.exists_eq_add_of_le hm
  have h1 := key (c ^ q * B) (mul_nonneg (pow_nonneg hc0 _) hB0) (q * T) (hq q) t i
  have h2 := mul_le_mul_of_nonneg_left (remain_range (fixed := fixed) hw t i).2
    (mul_nonneg (pow_nonneg hc0 q) hB0)
  linarith

end decay

theorem weight_pos {ents : List (List ℕ)} (h : Simplices 3 ents) (hr : ∀ r ∈ ents, ∀ i ∈ r, i < n)
    (hused : ∀ i < n, ∃ r ∈ ents, i ∈ r) (i : Fin n) : 0 < weight ents i := by
  obtain ⟨r, hr', hi⟩ := hused i i.2
  have hnd := (h r hr').2
  obtain ⟨a, b, c, rfl⟩ := length3 (h r hr').1
  have hex : ∃ j, j ∈ [a, b, c] ∧ i.1 ≠ j := by
    by_cases h1 : i.1 = a
    · refine ⟨b, by simp, ?_⟩; simp at hnd; omega
    · exact ⟨a, by simp, h1⟩
  obtain ⟨j, hj, hij⟩ := hex
  have hsh : 0 < shared ents i j := List.countP_pos_iff.2 ⟨_, hr', decide_eq_true ⟨hi, hj⟩⟩
  refine Finset.sum_pos' (fun _ _ => Nat.cast_nonneg _) ⟨⟨j, hr _ hr' j hj⟩, ?_, ?_⟩
  · exact Finset.mem_erase.2 ⟨fun he => hij (congrArg Fin.val he).symm, Finset.mem_univ _⟩
  · exact_mod_cast hsh

theorem adjacent_lt {ents : List (List ℕ)} (hr : ∀ r ∈ ents, ∀ i ∈ r, i < n) {a b : ℕ}
    (h : Adjacent ents a b) : a < n ∧ b < n := by
  obtain ⟨r, hr', hd⟩ := List.countP_pos_iff.1 h.2
  exact ⟨hr r hr' a (of_decide_eq_true hd).1, hr r hr' b (of_decide_eq_true hd).2⟩

theorem fixedConnected {ents : List (List ℕ)} (hr : ∀ r ∈ ents, ∀ i ∈ r, i < n)
    (hc : BoundaryConnected n ents) {fixed : Fin n → Prop}
    (hb : ∀ i : Fin n, OnBoundary2 ents i → fixed i) : FixedConnected ents fixed := by
  intro i
  obtain ⟨b, hbb, hp⟩ := hc i i.2
  have : ∃ hbn : b < n, Relation.ReflTransGen (fun a b : Fin n => Adjacent ents a b) i ⟨b, hbn⟩ := by
    clear hbb
    induction hp with
    | refl => exact ⟨i.2, Relation.ReflTransGen.refl⟩
    | tail _ hstep ih =>
      obtain ⟨h1, h2⟩ := ih
      exact ⟨(adjacent_lt hr hstep).2, h2.tail hstep⟩
  obtain ⟨hbn, hp⟩ := this
  exact ⟨⟨b, hbn⟩, hb ⟨b, hbn⟩ hbb, hp⟩

/-- Bars of two meshes differ by at most the sum of the coordinate changes. -/
theorem bar_sub_le (eps : ℝ) (u u' : Fin n → Fin d → ℝ) (a b : Fin n) {δ : ℝ}
    (hδ : ∀ i k, |u' i k - u i k| ≤ δ) : bar eps u' a b - bar eps u a b ≤ 2 * d * δ := by
  have hδ0 : d ≠ 0 → 0 ≤ δ := fun hd => (abs_nonneg _).trans (hδ a ⟨0, Nat.pos_of_ne_zero hd⟩)
  have hsq : Real.sqrt (∑ k, (u' a k - u' b k) ^ 2) ≤
      Real.sqrt (∑ k, (u a k - u b k) ^ 2) + 2 * d * δ := by
    let x : EuclideanSpace ℝ (Fin d) := WithLp.toLp 2 fun k => u a k - u b k
    let y : EuclideanSpace ℝ (Fin d) := WithLp.toLp 2 fun k => u' a k - u' b k
    have hx : ‖x‖ = Real.sqrt (∑ k, (u a k - u b k) ^ 2) := by
      rw [EuclideanSpace.norm_eq]; simp [x]
    have hy : ‖y‖ = Real.sqrt (∑ k, (u' a k - u' b k) ^ 2) := by
      rw [EuclideanSpace.norm_eq]; simp [y]
    have hd : ‖y - x‖ ≤ 2 * d * δ := by
      rw [EuclideanSpace.norm_eq]
      have hterm : ∀ k, ‖(y - x) k‖ ≤ 2 * δ := by
        intro k
        have h1 := hδ a k
        have h2 := hδ b k
        rw [abs_le] at h1 h2
        simp only [x, y, PiLp.sub_apply, Real.norm_eq_abs, abs_le]
        constructor <;> linarith
      refine Real.sqrt_le_iff.2 ⟨?_, ?_⟩
      · rcases Nat.eq_zero_or_pos d with h0 | h0
        · subst h0; simp
        · have := hδ0 h0.ne'; positivity
      · have h1 : ∑ k : Fin d, ‖(y - x) k‖ ^ 2 ≤ ∑ _k : Fin d, (2 * δ) ^ 2 :=
          Finset.sum_le_sum fun k _ => pow_le_pow_left₀ (norm_nonneg _) (hterm k) 2
        rw [Finset.sum_const, Finset.card_univ, Fintype.card_fin, nsmul_eq_mul] at h1
        refine h1.trans ?_
        have hdd : (d : ℝ) ≤ (d : ℝ) ^ 2 := by
          rcases Nat.eq_zero_or_pos d with h0 | h0
          · subst h0; simp
          · have : (1 : ℝ) ≤ d := by exact_mod_cast h0
            nlinarith
        have h4 : 0 ≤ (2 * δ) ^ 2 := sq_nonneg _
        calc (d : ℝ) * (2 * δ) ^ 2 ≤ (d : ℝ) ^ 2 * (2 * δ) ^ 2 := mul_le_mul_of_nonneg_right hdd h4
          _ = (2 * d * δ) ^ 2 := by ring
    have h3 : ‖y‖ ≤ ‖x‖ + ‖y - x‖ := by
      have := norm_add_le x (y - x)
      simpa using this
    rw [hx, hy] at h3
    linarith
  have h0 : 0 ≤ 2 * (d : ℝ) * δ := by
    rcases Nat.eq_zero_or_pos d with h0 | h0
    · subst h0; simp
    · have := hδ0 h0.ne'; positivity
  unfold bar
  have : max (Real.sqrt (∑ k, (u' a k - u' b k) ^ 2)) eps ≤
      max (Real.sqrt (∑ k, (u a k - u b k) ^ 2)) eps + 2 * d * δ := by
    refine max_le (hsq.trans ?_) ?_
    · linarith [le_max_left (Real.sqrt (∑ k, (u a k - u b k) ^ 2)) eps]
    · linarith [le_max_right (Real.sqrt (∑ k, (u a k - u b k) ^ 2)) eps]
  linarith

/-- Successive iterates get arbitrarily close. -/
theorem sweeps_settle {ents : List (List ℕ)} {fixed : Fin n → Prop}
    (hw : ∀ i : Fin n, 0 < weight ents i) (hc : FixedConnected ents fixed)
    {u : ℕ → Fin n → Fin d → ℝ} (hs : ∀ j, Sweep ents fixed (u j) (u (j + 1))) {δ : ℝ} (hδ : 0 < δ) :
    ∃ M, ∀ m ≥ M, ∀ i k, |u (m + 1) i k - u m i k| < δ := by
  have hex : ∀ k : Fin d, ∃ M, ∀ m ≥ M, ∀ i, |u (m + 1) i k - u m i k| < δ := by
    intro k
    refine decay hw hc (e := fun j i => u (j + 1) i k - u j i k) ?_ ?_ hδ
    · intro j i hi
      simp only [(hs j).keep i hi, sub_self]
    · intro j i hi
      simp only [mul_sub]
      rw [Finset.sum_sub_distrib]
      exact congrArg₂ _ ((hs (j + 1)).average i hi k) ((hs j).average i hi k)
  choose M hM using hex
  exact ⟨Finset.univ.sup M, fun m hm i k =>
    hM k m ((Finset.le_sup (Finset.mem_univ k)).trans hm) i⟩

/-- The iterates converge to every mesh that one sweep does not change. -/
theorem sweeps_converge {ents : List (List ℕ)} {fixed : Fin n → Prop}
    (hw : ∀ i : Fin n, 0 < weight ents i) (hc : FixedConnected ents fixed)
    {u : ℕ → Fin n → Fin d → ℝ} (hs : ∀ j, Sweep ents fixed (u j) (u (j + 1)))
    {x : Fin n → Fin d → ℝ} (hx : Sweep ents fixed x x) (hxv : ∀ i, fixed i → x i = u 0 i)
    {δ : ℝ} (hδ : 0 < δ) : ∃ M, ∀ m ≥ M, ∀ i k, |u m i k - x i k| < δ := by
  have hkeep : ∀ j i, fixed i → u j i = u 0 i := by
    intro j i hi
    induction j with
    | zero => rfl
    | succ j ih => rw [(hs j).keep i hi, ih]
  have hex : ∀ k : Fin d, ∃ M, ∀ m ≥ M, ∀ i, |u m i k - x i k| < δ := by
    intro k
    refine decay hw hc (e := fun j i => u j i k - x i k) ?_ ?_ hδ
    · intro j i hi
      simp only [hkeep j i hi, hxv i hi, sub_self]
    · intro j i hi
      simp only [mul_sub]
      rw [Finset.sum_sub_distrib]
      exact congrArg₂ _ ((hs j).average i hi k) (hx.average i hi k)
  choose M hM using hex
  exact ⟨Finset.univ.sup M, fun m hm i k =>
    hM k m ((Finset.le_sup (Finset.mem_univ k)).trans hm) i⟩

/-! ### C114 -/

/-- **C114 (what the call computes; partial).** On every valid triangle mesh whose vertices are all
used there are a set of fixed vertices (the boundary and the vertices closest to `pfix`) and the
sequence of sweeps that starts at the input, and for every `max_iter` the call returns a member
`u k` of that sequence with `k ≤ max_iter`: in every earlier sweep some bar grew by at least the
fraction `tol` of its new length, and if `k < max_iter` no bar grew that much in the last one.
Missing with respect to the documented "cease when movement < tol": only growth of bars counts,
`C114_shrinking_ignored`. -/
theorem C114_sweeps_partial {rk : List ℕ → ρ} (hrk : Function.Injective rk) {eps : ℝ} (heps : 0 < eps)
    (tol : ℝ) {ents : List (List ℕ)} (h : Simplices 3 ents) (hr : ∀ r ∈ ents, ∀ i ∈ r, i < n)
    (hne : ents ≠ []) (hused : ∀ i < n, ∃ r ∈ ents, i ∈ r)
    (v : Fin n → Fin d → ℝ) (pfix : Option (List (Fin d → ℝ))) :
    ∃ fixed : Fin n → Prop,
      (∀ i : Fin n, OnBoundary2 ents i → fixed i) ∧
      (∀ fs, pfix = some fs → ∀ f ∈ fs, ∃ i, fixed i ∧ IsClosest v f i) ∧
      (∀ i, fixed i → OnBoundary2 ents i ∨ ∃ fs, pfix = some fs ∧ ∃ f ∈ fs, IsClosest v f i) ∧
      ∃ u : ℕ → Fin n → Fin d → ℝ, u 0 = v ∧ (∀ j, Sweep ents fixed (u j) (u (j + 1))) ∧
      ∀ maxIter, ∃ k ≤ maxIter, laplacian2 rk eps v ents maxIter tol pfix = .ok (u k, ents) ∧
        (∀ j, j + 1 < k → ∃ a b : Fin n, Adjacent ents a b ∧
          tol * bar eps (u (j + 1)) a b ≤ bar eps (u (j + 1)) a b - bar eps (u j) a b) ∧
        (k < maxIter → 0 < k ∧ ∀ a b : Fin n, Adjacent ents a b →
          bar eps (u k) a b - bar eps (u (k - 1)) a b < tol * bar eps (u k) a b) :=
  laplacian2_loop hrk heps tol h hr hne hused v pfix

/-- **C114 (the loop ends by itself).** With a positive tolerance there is a number of sweeps that
the call never exceeds, whatever `max_iter` is: from there on a larger `max_iter` changes nothing. -/
theorem C114_terminates {rk : List ℕ → ρ} (hrk : Function.Injective rk) {eps : ℝ} (heps : 0 < eps)
    {tol : ℝ} (htol : 0 < tol) {ents : List (List ℕ)} (h : Simplices 3 ents)
    (hr : ∀ r ∈ ents, ∀ i ∈ r, i < n) (hne : ents ≠ []) (hused : ∀ i < n, ∃ r ∈ ents, i ∈ r)
    (hc : BoundaryConnected n ents) (v : Fin n → Fin d → ℝ) (pfix : Option (List (Fin d → ℝ))) :
    ∃ M, ∀ maxIter ≥ M, laplacian2 rk eps v ents maxIter tol pfix =
      laplacian2 rk eps v ents M tol pfix := by
  obtain ⟨fixed, hb, -, -, u, hu0, hs, hrun⟩ := laplacian2_loop hrk heps tol h hr hne hused v pfix
  have hw := weight_pos h hr hused
  obtain ⟨N, hN⟩ := sweeps_settle hw (fixedConnected hr hc hb) hs
    (δ := tol * eps / (2 * d + 1)) (by positivity)
  have hcalm : ∀ a b : Fin n,
      bar eps (u (N + 1)) a b - bar eps (u N) a b < tol * bar eps (u (N + 1)) a b := by
    intro a b
    have h1 := bar_sub_le eps (u N) (u (N + 1)) a b (fun i k => (hN N (le_refl _) i k).le)
    have h2 : tol * eps ≤ tol * bar eps (u (N + 1)) a b :=
      mul_le_mul_of_nonneg_left (le_max_right _ _) htol.le
    have h3 : 2 * (d : ℝ) * (tol * eps / (2 * d + 1)) < tol * eps := by
      rw [← mul_div_assoc, div_lt_iff₀ (by positivity)]
      have : 0 < tol * eps := mul_pos htol heps
      nlinarith
    linarith
  -- the number of sweeps is at most `N + 1`
  have hbound : ∀ m k, k ≤ m → (∀ j, j + 1 < k → ∃ a b : Fin n, Adjacent ents a b ∧
      tol * bar eps (u (j + 1)) a b ≤ bar eps (u (j + 1)) a b - bar eps (u j) a b) → k ≤ N + 1 := by
    intro m k _ hk
    by_contra hlt
    obtain ⟨a, b, -, hge⟩ := hk N (by omega)
    exact absurd (hcalm a b) (not_lt.2 hge)
  obtain ⟨k₀, hk₀, hrun₀, hA₀, hB₀⟩ := hrun (N + 2)
  have hk₀' := hbound _ _ hk₀ hA₀
  refine ⟨N + 2, fun m hm => ?_⟩
  obtain ⟨k, hk, hrunk, hA, hB⟩ := hrun m
  have hk' := hbound _ _ hk hA
  have hne' : k = k₀ := by
    rcases lt_trichotomy k k₀ with hlt | heq | hgt
    · exfalso
      obtain ⟨h0, hq⟩ := hB (by omega)
      obtain ⟨a, b, hab, hge⟩ := hA₀ (k - 1) (by omega)
      have := hq a b hab
      rw [show k - 1 + 1 = k by omega] at hge
      linarith
    · exact heq
    · exfalso
      obtain ⟨h0, hq⟩ := hB₀ (by omega)
      obtain ⟨a, b, hab, hge⟩ := hA (k₀ - 1) (by omega)
      have := hq a b hab
      rw [show k₀ - 1 + 1 = k₀ by omega] at hge
      linarith
  rw [hrunk, hrun₀, hne']

/-! ### C115 -/

theorem smooth_sweep {ents : List (List ℕ)} {v x : Fin n → Fin d → ℝ} (hx : Smooth ents v x)
    {fixed : Fin n → Prop} (hf : ∀ i, fixed i ↔ OnBoundary2 ents i) : Sweep ents fixed x x := by
  refine ⟨fun _ _ => rfl, fun i hi k => ?_⟩
  have := hx.interior i (fun hc => hi ((hf i).2 hc)) k
  simp only [mul_sub, Finset.sum_sub_distrib, ← Finset.sum_mul] at this
  linarith

/-- **C115 (repeating the sweep approaches the fixed-point solve).** On a mesh whose vertices are
all connected to the boundary, with no stopping tolerance, the result of `laplacian2` tends, as
`max_iter` grows, to the solution of the system that `laplacian2_fixed_point` solves. -/
theorem C115_converges {rk : List ℕ → ρ} (hrk : Function.Injective rk) {eps : ℝ} (heps : 0 < eps)
    {tol : ℝ} (htol : tol ≤ 0) {ents : List (List ℕ)} (h : Simplices 3 ents)
    (hr : ∀ r ∈ ents, ∀ i ∈ r, i < n) (hne : ents ≠ []) (hused : ∀ i < n, ∃ r ∈ ents, i ∈ r)
    (hc : BoundaryConnected n ents) (v : Fin n → Fin d → ℝ) :
    ∃ (m : Matrix (Fin n) (Fin n) ℝ) (rhs x : Matrix (Fin n) (Fin d) ℝ),
      assemble rk v ents = .ok (m, rhs) ∧ m * x = rhs ∧ (∀ y, m * y = rhs → y = x) ∧
      ∀ δ > 0, ∃ M, ∀ maxIter ≥ M, ∃ v', laplacian2 rk eps v ents maxIter tol none = .ok (v', ents) ∧
        ∀ i k, |v' i k - x i k| < δ := by
  obtain ⟨m, rhs, hm, hiff⟩ := C41_system hrk h hr v
  obtain ⟨m', rhs', hm', x, hx, huniq⟩ := C41_unique hrk h hr hc v
  rw [hm] at hm'
  cases hm'
  refine ⟨m, rhs, x, hm, hx, huniq, fun δ hδ => ?_⟩
  have hx := (hiff x).1 hx
  obtain ⟨fixed, hb, -, hb2, u, hu0, hs, hrun⟩ := laplacian2_loop hrk heps tol h hr hne hused v none
  have hfix : ∀ i : Fin n, fixed i ↔ OnBoundary2 ents i := by
    intro i
    refine ⟨fun hi => ?_, hb i⟩
    rcases hb2 i hi with h1 | ⟨fs, hfs, -⟩
    · exact h1
    · exact absurd hfs (by simp)
  have hw := weight_pos h hr hused
  obtain ⟨M, hM⟩ := sweeps_converge hw (fixedConnected hr hc hb) hs (smooth_sweep hx hfix)
    (fun i hi => by rw [hu0]; exact hx.boundary i ((hfix i).1 hi)) hδ
  refine ⟨M, fun maxIter hge => ?_⟩
  obtain ⟨k, hk, hrunk, -, hB⟩ := hrun maxIter
  -- a boundary edge never changes, so the loop never stops early
  have hkm : k = maxIter := by
    by_contra hlt
    obtain ⟨h0, hq⟩ := hB (by omega)
    have hn : 0 < n := by
      match ents, hne with
      | r :: rs, _ =>
        obtain ⟨a, b, c, rfl⟩ := length3 (h r (by simp)).1
        have := hr [a, b, c] (by simp) a (by simp)
        omega
    obtain ⟨a, ⟨b, hba, hab⟩, -⟩ := hc 0 hn
    have hadj : Adjacent ents a b := ⟨hba.symm, by omega⟩
    obtain ⟨han, hbn⟩ := adjacent_lt hr hadj
    have hA : fixed ⟨a, han⟩ := hb _ ⟨b, hba, hab⟩
    have hB : fixed ⟨b, hbn⟩ := hb _ ⟨a, hba.symm, by rw [shared_comm]; exact hab⟩
    have hsw := hs (k - 1)
    rw [show k - 1 + 1 = k by omega] at hsw
    have hq' := hq ⟨a, han⟩ ⟨b, hbn⟩ hadj
    have heq : bar eps (u k) ⟨a, han⟩ ⟨b, hbn⟩ = bar eps (u (k - 1)) ⟨a, han⟩ ⟨b, hbn⟩ := by
      unfold bar
      rw [hsw.keep _ hA, hsw.keep _ hB]
    rw [heq, sub_self] at hq'
    have := bar_pos heps (u (k - 1)) ⟨a, han⟩ ⟨b, hbn⟩
    nlinarith
  subst hkm
  exact ⟨u k, hrunk, hM k hge⟩

/-! ### The documented rule is not the rule -/

/-- Six triangles around the edge between the inner vertices 4 and 5. -/
def kite : List (List ℕ) := [[0, 1, 4], [0, 4, 3], [4, 1, 5], [4, 5, 3], [5, 1, 2], [5, 2, 3]]

/-- Their vertices. -/
def kitePts : Fin 6 → Fin 2 → ℝ :=
  ![![-200, 0], ![69, -10], ![142, 0], ![69, 10], ![0, 0], ![70, 0]]

/-- After one sweep. -/
def kiteNext : Fin 6 → Fin 2 → ℝ :=
  ![![-200, 0], ![69, -10], ![142, 0], ![69, 10], ![2, 0], ![70, 0]]

theorem kite_ok : Simplices 3 kite ∧ (∀ r ∈ kite, ∀ i ∈ r, i < 6) ∧ kite ≠ [] ∧
    (∀ i < 6, ∃ r ∈ kite, i ∈ r) := by
  refine ⟨by intro r hr; fin_cases hr <;> decide, by decide, by decide, ?_⟩
  intro i hi
  interval_cases i <;> decide

theorem kite_boundary (i : Fin 6) : OnBoundary2 kite i ↔ i.1 < 4 := by
  constructor
  · intro ⟨w, hw, hs⟩
    by_contra hge
    have hw6 : w < 6 := by
      have : 0 < shared kite i w := by omega
      exact (adjacent_lt kite_ok.2.1 ⟨hw.symm, this⟩).2
    have hi : i = 4 ∨ i = 5 := by omega
    rcases hi with rfl | rfl <;> interval_cases w <;> revert hs hw <;> decide
  · intro hi
    have : i = 0 ∨ i = 1 ∨ i = 2 ∨ i = 3 := by omega
    rcases this with rfl | rfl | rfl | rfl
    · exact ⟨1, by decide, by decide⟩
    · exact ⟨0, by decide, by decide⟩
    · exact ⟨1, by decide, by decide⟩
    · exact ⟨0, by decide, by decide⟩

theorem kite_same : ∀ i : Fin 6, i ≠ 4 → kiteNext i = kitePts i := by
  intro i hi
  have : i = 0 ∨ i = 1 ∨ i = 2 ∨ i = 3 ∨ i = 5 := by omega
  rcases this with rfl | rfl | rfl | rfl | rfl <;> simp [kiteNext, kitePts]

theorem kite_sweep {u' : Fin 6 → Fin 2 → ℝ} {fixed : Fin 6 → Prop}
    (hf : ∀ i, fixed i ↔ OnBoundary2 kite i) (h : Sweep kite fixed kitePts u') : u' = kiteNext := by
  have hb : ∀ i, fixed i ↔ i.1 < 4 := fun i => (hf i).trans (kite_boundary i)
  have e4 : (Finset.univ : Finset (Fin 6)).erase 4 = {0, 1, 2, 3, 5} := by decide
  have e5 : (Finset.univ : Finset (Fin 6)).erase 5 = {0, 1, 2, 3, 4} := by decide
  have s4 : shared kite 4 0 = 2 ∧ shared kite 4 1 = 2 ∧ shared kite 4 2 = 0 ∧ shared kite 4 3 = 2 ∧
    shared kite 4 5 = 2 := by decide
  have s5 : shared kite 5 0 = 0 ∧ shared kite 5 1 = 2 ∧ shared kite 5 2 = 2 ∧ shared kite 5 3 = 2 ∧
    shared kite 5 4 = 2 := by decide
  have h4 := fun k => h.average 4 (by rw [hb]; decide) k
  have h5 := fun k => h.average 5 (by rw [hb]; decide) k
  rw [e4] at h4
  rw [e5] at h5
  funext i k
  by_cases hi : i.1 < 4
  · rw [h.keep i ((hb i).2 hi)]
    exact (congrFun (kite_same i (by omega)) k).symm
  · have : i = 4 ∨ i = 5 := by omega
    rcases this with rfl | rfl
    · have := h4 k
      simp [Finset.sum_insert, s4] at this
      fin_cases k
      · simp [kitePts, kiteNext] at this ⊢; linarith
      · simp [kitePts, kiteNext] at this ⊢
        rcases this with h | h
        · norm_num at h
        · exact h
    · have := h5 k
      simp [Finset.sum_insert, s5] at this
      fin_cases k
      · simp [kitePts, kiteNext] at this ⊢; linarith
      · simp [kitePts, kiteNext] at this ⊢
        rcases this with h | h
        · norm_num at h
        · exact h

theorem kite_calm {eps : ℝ} (heps : 0 < eps) (he1 : eps ≤ 1) (a b : Fin 6)
    (hab : Adjacent kite a b) :
    bar eps kiteNext a b - bar eps kitePts a b < 1 / 100 * bar eps kiteNext a b := by
  have hp := bar_pos heps kiteNext a b
  have same : (a ≠ 4 ∧ b ≠ 4) →
      bar eps kiteNext a b - bar eps kitePts a b < 1 / 100 * bar eps kiteNext a b := by
    rintro ⟨ha, hb⟩
    have hk := kite_same
    have : bar eps kiteNext a b = bar eps kitePts a b := by
      unfold bar; rw [hk a ha, hk b hb]
    linarith
  have main : ∀ b : Fin 6, Adjacent kite 4 b →
      bar eps kiteNext 4 b - bar eps kitePts 4 b < 1 / 100 * bar eps kiteNext 4 b := by
    intro b hb
    have hp := bar_pos heps kiteNext 4 b
    have shrink : bar eps kiteNext 4 b ≤ bar eps kitePts 4 b →
        bar eps kiteNext 4 b - bar eps kitePts 4 b < 1 / 100 * bar eps kiteNext 4 b := by
      intro; linarith
    have shr : ∑ k, (kiteNext 4 k - kiteNext b k) ^ 2 ≤ ∑ k, (kitePts 4 k - kitePts b k) ^ 2 →
        bar eps kiteNext 4 b ≤ bar eps kitePts 4 b := fun hle =>
      max_le_max (Real.sqrt_le_sqrt hle) (le_refl _)
    fin_cases b
    · have h1 : bar eps kiteNext 4 0 = 202 := by
        unfold bar
        rw [show (∑ k, (kiteNext 4 k - kiteNext 0 k) ^ 2) = 202 ^ 2 by
          simp [Fin.sum_univ_two, kiteNext]; norm_num, Real.sqrt_sq (by norm_num)]
        exact max_eq_left (by linarith)
      have h2 : bar eps kitePts 4 0 = 200 := by
        unfold bar
        rw [show (∑ k, (kitePts 4 k - kitePts 0 k) ^ 2) = 200 ^ 2 by
          simp [Fin.sum_univ_two, kitePts], Real.sqrt_sq (by norm_num)]
        exact max_eq_left (by linarith)
      change bar eps kiteNext 4 0 - bar eps kitePts 4 0 < 1 / 100 * bar eps kiteNext 4 0
      rw [h1, h2]; norm_num
    · exact shrink (shr (by simp [Fin.sum_univ_two, kiteNext, kitePts]; norm_num))
    · exact absurd hb.2 (by decide)
    · exact shrink (shr (by simp [Fin.sum_univ_two, kiteNext, kitePts]; norm_num))
    · exact absurd rfl hb.1
    · exact shrink (shr (by simp [Fin.sum_univ_two, kiteNext, kitePts]; norm_num))
  by_cases ha : a = 4
  · subst ha; exact main b hab
  · by_cases hb : b = 4
    · subst hb
      rw [bar_comm eps _ a, bar_comm eps _ a]
      exact main a ⟨hab.1.symm, by rw [shared_comm]; exact hab.2⟩
    · exact same ⟨ha, hb⟩

/-- **C114 (shrinking does not count).** With the default tolerance 0.01 the smoother stops after
one sweep on this mesh, for every `max_iter ≥ 1`, although that sweep moved a vertex by 2 and
shortened the bar between 4 and 5 from 70 to 68, that is by more than 0.01 of its length, and
although the returned mesh is not smoothed: another sweep would move vertex 5. -/
theorem C114_shrinking_ignored {rk : List ℕ → ρ} (hrk : Function.Injective rk) {eps : ℝ}
    (heps : 0 < eps) (he1 : eps ≤ 1) (maxIter : ℕ) (hm : 1 ≤ maxIter) :
    laplacian2 rk eps kitePts kite maxIter (1 / 100) none = .ok (kiteNext, kite) ∧
      bar eps kitePts 4 5 = 70 ∧ bar eps kiteNext 4 5 = 68 ∧
      1 / 100 * bar eps kiteNext 4 5 < |bar eps kiteNext 4 5 - bar eps kitePts 4 5| ∧
      ¬ Sweep kite (fun i => OnBoundary2 kite i) kiteNext kiteNext := by
  obtain ⟨h, hr, hne, hused⟩ := kite_ok
  obtain ⟨fixed, hb, -, hb2, u, hu0, hs, hrun⟩ :=
    laplacian2_loop (d := 2) hrk heps (1 / 100) h hr hne hused kitePts none
  have hfix : ∀ i : Fin 6, fixed i ↔ OnBoundary2 kite i := by
    intro i
    refine ⟨fun hi => ?_, hb i⟩
    rcases hb2 i hi with h1 | ⟨fs, hfs, -⟩
    · exact h1
    · exact absurd hfs (by simp)
  have hu1 : u 1 = kiteNext := kite_sweep hfix (by have := hs 0; rwa [hu0] at this)
  obtain ⟨k, hk, hrunk, hA, hB⟩ := hrun maxIter
  have hk1 : k = 1 := by
    rcases Nat.lt_trichotomy k 1 with hlt | heq | hgt
    · have := (hB (by omega)).1; omega
    · exact heq
    · exfalso
      obtain ⟨a, b, hab, hge⟩ := hA 0 (by omega)
      rw [zero_add, hu1, hu0] at hge
      exact absurd (kite_calm heps he1 a b hab) (not_lt.2 hge)
  subst hk1
  rw [hu1] at hrunk
  have h70 : bar eps kitePts 4 5 = 70 := by
    unfold bar
    rw [show (∑ k, (kitePts 4 k - kitePts 5 k) ^ 2) = 70 ^ 2 by
      simp [Fin.sum_univ_two, kitePts], Real.sqrt_sq (by norm_num)]
    exact max_eq_left (by linarith)
  have h68 : bar eps kiteNext 4 5 = 68 := by
    unfold bar
    rw [show (∑ k, (kiteNext 4 k - kiteNext 5 k) ^ 2) = 68 ^ 2 by
      simp [Fin.sum_univ_two, kiteNext]; norm_num, Real.sqrt_sq (by norm_num)]
    exact max_eq_left (by linarith)
  refine ⟨hrunk, h70, h68, ?_, ?_⟩
  · rw [h70, h68]; norm_num
  · intro hsw
    have e5 : (Finset.univ : Finset (Fin 6)).erase 5 = {0, 1, 2, 3, 4} := by decide
    have s5 : shared kite 5 0 = 0 ∧ shared kite 5 1 = 2 ∧ shared kite 5 2 = 2 ∧
      shared kite 5 3 = 2 ∧ shared kite 5 4 = 2 := by decide
    have := hsw.average 5 (by rw [kite_boundary]; decide) 0
    rw [e5] at this
    simp [Finset.sum_insert, s5, kiteNext] at this
    norm_num at this

/-- The hypotheses of C114 and C115 hold for this mesh. -/
example : Simplices 3 kite ∧ (∀ r ∈ kite, ∀ i ∈ r, i < 6) ∧ kite ≠ [] ∧
    (∀ i < 6, ∃ r ∈ kite, i ∈ r) ∧ BoundaryConnected 6 kite := by
  obtain ⟨h1, h2, h3, h4⟩ := kite_ok
  refine ⟨h1, h2, h3, h4, fun i hi => ?_⟩
  by_cases h : i < 4
  · exact ⟨i, (kite_boundary ⟨i, hi⟩).2 h, Relation.ReflTransGen.refl⟩
  · refine ⟨1, (kite_boundary 1).2 (by decide), Relation.ReflTransGen.single ?_⟩
    have : i = 4 ∨ i = 5 := by omega
    rcases this with rfl | rfl <;> exact ⟨by decide, by decide⟩

end SM.Laplace
