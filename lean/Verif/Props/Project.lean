import Verif.Model.Project
import Verif.Props.Topology
import Mathlib.Tactic.FieldSimp
import Mathlib.Tactic.Linarith

/-!
# C56, C57: the Newton projections
-/

namespace SM.Project

open Np Topology FixMesh

noncomputable section
variable {d : ℕ}

/-! ### Specification -/

/-- The half space `n · x ≤ c`: signed distance for a unit normal. -/
def halfSpace (n : Fin d → ℝ) (c : ℝ) (x : Fin d → ℝ) : ℝ := ∑ k, n k * x k - c

/-- The foot of `x` on the plane `n · x = c`. -/
def foot (n : Fin d → ℝ) (c : ℝ) (x : Fin d → ℝ) : Fin d → ℝ := x - halfSpace n c x • n

theorem foot_on {n : Fin d → ℝ} (hn : ∑ k, n k ^ 2 = 1) (c : ℝ) (x : Fin d → ℝ) : halfSpace n c (foot n c x) = 0 := by
  have h : ∑ k, n k * foot n c x k = ∑ k, n k * x k - halfSpace n c x * ∑ k, n k ^ 2 := by
    rw [Finset.mul_sum, ← Finset.sum_sub_distrib]
    exact Finset.sum_congr rfl fun k _ => by simp only [foot, Pi.sub_apply, Pi.smul_apply, smul_eq_mul]; ring
  rw [halfSpace, h, hn]
  simp [halfSpace]

/-! ### Auxiliary facts -/

theorem dgrad_halfSpace (n : Fin d → ℝ) (c : ℝ) {deps : ℝ} (hd : 0 < deps) (x : Fin d → ℝ) (i : Fin d) :
    dgrad (halfSpace n c) deps x i = n i := by
  have h : ∑ k, n k * bump deps x i k = ∑ k, n k * x k + n i * deps := by
    simp only [bump, mul_add, Finset.sum_add_distrib, mul_ite, mul_zero, Finset.sum_ite_eq', Finset.mem_univ, if_true]
  rw [dgrad, halfSpace, h, halfSpace]
  field_simp
  ring

theorem newton_halfSpace {n : Fin d → ℝ} (hn : ∑ k, n k ^ 2 = 1) (c : ℝ) {deps : ℝ} (hd : 0 < deps) (h1 : deps ≤ 1)
    (x : Fin d → ℝ) : newton (halfSpace n c) deps 1 x = foot n c x := by
  funext i
  simp only [newton, dgrad2, dgrad_halfSpace n c hd, hn, if_neg (not_lt.2 h1), foot, Pi.sub_apply, Pi.smul_apply, smul_eq_mul]
  ring

theorem newton_zero {fd : (Fin d → ℝ) → ℝ} {x : Fin d → ℝ} (h : fd x = 0) (deps alpha : ℝ) :
    newton fd deps alpha x = x := by
  funext i; simp [newton, h]

/-! ### C56 -/

/-- **C56.** The projection keeps the number of points; a point with non-positive distance keeps its
position, and so does, for a subdomain, every point at distance `hmin / 1.5` or more. -/
theorem C56_inside_unmoved (fd : (Fin d → ℝ) → ℝ) (deps hmin : ℝ) (idx : ℕ) (p : List (Fin d → ℝ)) :
    (projectBack fd deps hmin idx p).length = p.length ∧
    ∀ (i : ℕ) x, p[i]? = some x → (fd x ≤ 0 ∨ (idx ≠ 0 ∧ hmin / 1.5 ≤ fd x)) →
      (projectBack fd deps hmin idx p)[i]? = some x := by
  refine ⟨by simp [projectBack], fun i x hx h => ?_⟩
  have hs : ¬ selected hmin idx (fd x) := by
    unfold selected
    split
    · rename_i h0
      rcases h with h | h
      · exact not_lt.2 h
      · exact absurd h0 h.1
    · rcases h with h | h
      · exact fun hc => absurd hc.1 (not_lt.2 h)
      · exact fun hc => absurd hc.2 (not_lt.2 h.2)
  simp [projectBack, hx, hs]

/-- **C56.** Points outside a half space with unit normal go exactly to their foot on its boundary plane; the
others stay. (`deps` is `1.5e-8 * h0`.) -/
theorem C56_half_space {n : Fin d → ℝ} (hn : ∑ k, n k ^ 2 = 1) (c : ℝ) {deps : ℝ} (hd : 0 < deps) (h1 : deps ≤ 1)
    (hmin : ℝ) (p : List (Fin d → ℝ)) (i : ℕ) (x : Fin d → ℝ) (hx : p[i]? = some x) :
    ∃ y, (projectBack (halfSpace n c) deps hmin 0 p)[i]? = some y ∧ halfSpace n c y ≤ 0 ∧
      (halfSpace n c x ≤ 0 → y = x) ∧
      (0 < halfSpace n c x → y = foot n c x ∧ halfSpace n c y = 0) := by
  by_cases h : 0 < halfSpace n c x
  · refine ⟨foot n c x, ?_, (foot_on hn c x).le, fun h' => absurd h (not_lt.2 h'), fun _ => ⟨rfl, foot_on hn c x⟩⟩
    simp [projectBack, hx, selected, h, newton_halfSpace hn c hd h1]
  · refine ⟨x, ?_, not_lt.1 h, fun _ => rfl, fun h' => absurd h' h⟩
    simp [projectBack, hx, selected, h]

/-- In general a projected point moves along the finite-difference gradient, by the distance divided by the
squared length of that gradient (at least `deps`). -/
theorem C56_direction (fd : (Fin d → ℝ) → ℝ) (deps hmin : ℝ) (p : List (Fin d → ℝ)) (i : ℕ)
    (x : Fin d → ℝ) (hx : p[i]? = some x) (hpos : 0 < fd x) :
    (projectBack fd deps hmin 0 p)[i]? = some (x - (fd x / max (∑ k, ((fd (fun j => x j + if j = k then deps else 0) - fd x) / deps) ^ 2) deps) •
      fun k => (fd (fun j => x j + if j = k then deps else 0) - fd x) / deps) := by
  have h2 : dgrad2 fd deps x = max (∑ k, ((fd (fun j => x j + if j = k then deps else 0) - fd x) / deps) ^ 2) deps := by
    unfold dgrad2 dgrad bump
    simp only
    split
    · rename_i h; rw [max_eq_right h.le]
    · rename_i h; rw [max_eq_left (not_lt.1 h)]
  simp only [projectBack, List.getElem?_map, hx, selected, if_true, gt_iff_lt, hpos, Option.map_some, Option.some.injEq]
  funext k
  simp only [newton, h2, Pi.sub_apply, Pi.smul_apply, smul_eq_mul, dgrad]
  unfold bump
  ring

/-! ### C57 -/

theorem improveStep_spec {fd : (Fin d → ℝ) → ℝ} {deps alpha : ℝ} {bid : List ℕ} {p : List (Fin d → ℝ)}
    (h : ∀ i ∈ bid, i < p.length) :
    ∃ q, improveStep fd deps alpha bid p = .ok q ∧ q.length = p.length ∧
      ∀ (i : ℕ) x, p[i]? = some x → q[i]? = some (if i ∈ bid then newton fd deps alpha x else x) := by
  obtain ⟨_, ht⟩ := take_ok h
  refine ⟨_, by simp only [improveStep, ht, bind, Except.bind, pure, Except.pure]; rfl, by simp, ?_⟩
  intro i x hx
  simp [List.getElem?_map, List.getElem?_zipIdx, hx]

theorem improveLoop_spec {fd : (Fin d → ℝ) → ℝ} {deps : ℝ} {bid : List ℕ} (n : ℕ) :
    ∀ (k : ℕ) (alpha : ℝ) (p : List (Fin d → ℝ)), (∀ i ∈ bid, i < p.length) →
    ∃ q, improveLoop fd deps bid n k alpha p = .ok q ∧ q.length = p.length ∧
      ∀ (i : ℕ) x, p[i]? = some x → (i ∉ bid ∨ fd x = 0) → q[i]? = some x := by
  induction n with
  | zero => intro k alpha p _; exact ⟨p, rfl, rfl, fun _ _ h _ => h⟩
  | succ n ih =>
    intro k alpha p hb
    obtain ⟨q, hq, hl, hq'⟩ := improveStep_spec (fd := fd) (deps := deps) (alpha := alpha) hb
    obtain ⟨r, hr, hrl, hr'⟩ := ih (k + 1) (alpha / ((k : ℝ) + 1)) q (by rwa [hl])
    refine ⟨r, ?_, hrl.trans hl, ?_⟩
    · simp only [improveLoop, hq, bind, Except.bind]; exact hr
    · intro i x hx hor
      refine hr' i x ?_ hor
      rw [hq' i x hx]
      rcases hor with h | h
      · simp [h]
      · simp [newton_zero h]

/-- On a half space the first pass (full Newton step) reaches the plane. -/
theorem improveLoop_halfSpace {n : Fin d → ℝ} (hn : ∑ k, n k ^ 2 = 1) (c : ℝ) {deps : ℝ} (hd : 0 < deps) (h1 : deps ≤ 1)
    {bid : List ℕ} {p : List (Fin d → ℝ)} (hb : ∀ i ∈ bid, i < p.length) :
    ∃ q, improveLoop (halfSpace n c) deps bid 5 0 1 p = .ok q ∧
      ∀ (i : ℕ) x, i ∈ bid → p[i]? = some x → q[i]? = some (foot n c x) := by
  obtain ⟨q, hq, hl, hq'⟩ := improveStep_spec (fd := halfSpace n c) (deps := deps) (alpha := 1) hb
  obtain ⟨r, hr, hrl, hr'⟩ := improveLoop_spec (fd := halfSpace n c) (deps := deps) (bid := bid) 4 (0 + 1)
    (1 / (((0 : ℕ) : ℝ) + 1)) q (by rwa [hl])
  refine ⟨r, ?_, ?_⟩
  · simp only [improveLoop, hq, bind, Except.bind]
    exact hr
  · intro i x hi hx
    refine hr' i _ ?_ (Or.inr (foot_on hn c x))
    rw [hq' i x hx, if_pos hi, newton_halfSpace hn c hd h1]

/-- What C57 promises of the result `q` of the level-set clean-up of `p`. -/
structure BoundaryOnly (onB : ℕ → Prop) (fd : (Fin d → ℝ) → ℝ) (p q : List (Fin d → ℝ)) : Prop where
  length : q.length = p.length
  interior : ∀ (i : ℕ) x, p[i]? = some x → ¬ onB i → q[i]? = some x
  onLevel : ∀ (i : ℕ) x, p[i]? = some x → fd x = 0 → q[i]? = some x
  plane : ∀ (n : Fin d → ℝ) (c : ℝ), ∑ k, n k ^ 2 = 1 → fd = halfSpace n c →
    ∀ (i : ℕ) x, p[i]? = some x → onB i → q[i]? = some (foot n c x)

theorem improve_spec {ρ : Type} [LinearOrder ρ] {rk : List ℕ → ρ} {fd : (Fin d → ℝ) → ℝ} {deps : ℝ} (hd : 0 < deps)
    (h1 : deps ≤ 1) {p : List (Fin d → ℝ)} {t : List (List ℕ)} {bid : List ℕ} (onB : ℕ → Prop)
    (hbid : getBoundaryVertices rk t d = .ok bid) (hB : ∀ v, v ∈ bid ↔ onB v) (hin : ∀ v, onB v → v < p.length) :
    ∃ q, improve rk fd deps p t = .ok q ∧ BoundaryOnly onB fd p q := by
  have hb : ∀ i ∈ bid, i < p.length := fun i hi => hin i ((hB i).1 hi)
  obtain ⟨q, hq, hl, hq'⟩ := improveLoop_spec (fd := fd) (deps := deps) (bid := bid) 5 0 1 p hb
  refine ⟨q, by simp only [improve, hbid, bind, Except.bind]; exact hq, hl,
    fun i x hx hi => hq' i x hx (Or.inl fun h => hi ((hB i).1 h)), fun i x hx hz => hq' i x hx (Or.inr hz), ?_⟩
  rintro n c hn rfl i x hx hi
  obtain ⟨q', hq1, hq2⟩ := improveLoop_halfSpace hn c hd h1 hb
  rw [hq] at hq1
  cases hq1
  exact hq2 i x ((hB i).2 hi) hx

/-- **C57 (2-D).** The clean-up returns as many vertices, moves only vertices of edges that belong to exactly
one triangle, and of those only the ones off the level set; for a straight boundary it puts them exactly on it. The
connectivity is not an output of the function. -/
theorem C57_triangles {ρ : Type} [LinearOrder ρ] {rk : List ℕ → ρ} (hrk : Function.Injective rk)
    (fd : (Fin 2 → ℝ) → ℝ) {deps : ℝ} (hd : 0 < deps) (h1 : deps ≤ 1) {p : List (Fin 2 → ℝ)} {t : List (List ℕ)}
    (ht : Simplices 3 t) (hr : InRange p t) :
    ∃ q, improve rk fd deps p t = .ok q ∧ BoundaryOnly (OnBoundary2 t) fd p q := by
  obtain ⟨bv, hbv, -, hm⟩ := C35_boundary_vertices2 hrk ht
  refine improve_spec hd h1 _ hbv hm ?_
  rintro v ⟨w, -, hw⟩
  have : 0 < shared t v w := by omega
  rw [shared, List.countP_pos_iff] at this
  obtain ⟨r, hrt, hrv⟩ := this
  simp at hrv
  exact hr r hrt v hrv.1

/-- **C57 (3-D).** -/
theorem C57_tetrahedra {ρ : Type} [LinearOrder ρ] {rk : List ℕ → ρ} (hrk : Function.Injective rk)
    (fd : (Fin 3 → ℝ) → ℝ) {deps : ℝ} (hd : 0 < deps) (h1 : deps ≤ 1) {p : List (Fin 3 → ℝ)} {t : List (List ℕ)}
    (ht : Simplices 4 t) (hr : InRange p t) :
    ∃ q, improve rk fd deps p t = .ok q ∧ BoundaryOnly (OnBoundary3 t) fd p q := by
  obtain ⟨bv, hbv, -, hm⟩ := C35_boundary_vertices3 hrk ht
  refine improve_spec hd h1 _ hbv hm ?_
  rintro v ⟨a, b, -, -, -, hw⟩
  have : 0 < shared3 t v a b := by omega
  rw [shared3, List.countP_pos_iff] at this
  obtain ⟨r, hrt, hrv⟩ := this
  simp at hrv
  exact hr r hrt v hrv.1

/-- A concrete case: a triangle against the half plane `y ≤ 1`; its upper vertex at `y = 2` goes to `(0, 1)`. -/
example : ∃ q, improve (fun r => (r : List ℕ)) (halfSpace ![0, 1] 1) (1 / 1000) [![0, 0], ![1, 0], ![0, 2]] [[0, 1, 2]] = .ok q ∧
    q[2]? = some ![0, 1] := by
  obtain ⟨q, h1, h2⟩ := C57_triangles (rk := fun r => (r : List ℕ)) (fun _ _ h => h) (halfSpace ![0, 1] 1)
    (deps := 1 / 1000) (by norm_num) (by norm_num) (p := [![0, 0], ![1, 0], ![0, 2]]) (t := [[0, 1, 2]])
    (by intro r hr; simp at hr; subst hr; simp) (by intro r hr; simp at hr; subst hr; simp)
  refine ⟨q, h1, ?_⟩
  rw [h2.plane ![0, 1] 1 (by simp) rfl 2 ![0, 2] rfl ⟨0, by decide, by decide⟩]
  congr 1
  funext i
  fin_cases i <;> norm_num [foot, halfSpace]

end

end SM.Project
