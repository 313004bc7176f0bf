import Verif.Props.SliverCall
import Verif.Props.Translate
import Verif.Props.Gradient

/-!
# C128: `sliver_removal` does not depend on the unit of length or on where the mesh is

Two calls of `sliver_removal` that differ by a change of the unit, `x ↦ s x`, or by a translation, `x ↦ x + v`, of the points, the domain and the sizes.
The passes agree for both at once, `x ↦ s x + v`; the final `fix_mesh` is treated separately, because its snapping grid is anchored at the origin.
-/

namespace SM.Sliver

open Np MeshLoop Simplex Units FixMesh Topology

noncomputable section

variable {κ ρ : Type} [LinearOrder κ] [LinearOrder ρ] {s : ℝ} {v : Fin 3 → ℝ}

/-! ### Angles -/

theorem l2_smul (hs : 0 < s) (u : Fin 3 → ℝ) : l2 (fun j => s * u j) = s * l2 u := by
  unfold l2
  rw [← sqrt_scale hs]
  congr 1
  ring

theorem sub_chg (x y : Fin 3 → ℝ) : (fun j => chg s v x j - chg s v y j) = fun j => s * (x j - y j) := by
  funext j
  simp only [chg]
  ring

theorem unit_chg (hs : 0 < s) (x y : Fin 3 → ℝ) :
    (fun j => (chg s v x j - chg s v y j) / l2 fun j => chg s v x j - chg s v y j) = fun j => (x j - y j) / l2 fun j => x j - y j := by
  rw [sub_chg, l2_smul hs]
  funext j
  rw [show chg s v x j - chg s v y j = s * (x j - y j) from congrFun (sub_chg x y) j, mul_div_mul_left _ _ hs.ne']

theorem l2_sub_chg (hs : 0 < s) (x y : Fin 3 → ℝ) : (l2 fun j => chg s v x j - chg s v y j) = 0 ↔ (l2 fun j => x j - y j) = 0 := by
  rw [sub_chg, l2_smul hs, mul_eq_zero]
  simp [hs.ne']

theorem angle_chg (hs : 0 < s) (a b c e : Fin 3 → ℝ) : angleOrNan (chg s v a) (chg s v b) (chg s v c) (chg s v e) = angleOrNan a b c e := by
  have hc : cosDihedral (chg s v a) (chg s v b) (chg s v c) (chg s v e) = cosDihedral a b c e := by
    unfold cosDihedral
    simp only [unit_chg hs]
  unfold angleOrNan
  simp only [unit_chg hs, l2_sub_chg hs, hc]

theorem cellAngles_chg (hs : 0 < s) (q : Fin 4 → Fin 3 → ℝ) : cellAnglesN (fun i => chg s v (q i)) = cellAnglesN q := by
  unfold cellAnglesN
  simp only [angle_chg hs]

theorem item_map {P Q : Type} (φ : P → Q) (p : List P) (i : ℕ) : item (p.map φ) i = (item p i).map φ := by
  unfold item
  rw [List.getElem?_map]
  cases p[i]? <;> rfl

theorem corners_map (φ : (Fin 3 → ℝ) → Fin 3 → ℝ) (p : List (Fin 3 → ℝ)) (row : List ℕ) :
    corners (p.map φ) row = (corners p row).map fun q i => φ (q i) := by
  unfold corners
  simp only [bind, Except.bind, pure, Except.pure, item_map]
  cases item row 0 with
  | error e => rfl
  | ok i0 =>
  simp only []
  cases item p i0 with
  | error e => rfl
  | ok a =>
  simp only [Except.map]
  cases item row 1 with
  | error e => rfl
  | ok i1 =>
  simp only []
  cases item p i1 with
  | error e => rfl
  | ok b =>
  simp only []
  cases item row 2 with
  | error e => rfl
  | ok i2 =>
  simp only []
  cases item p i2 with
  | error e => rfl
  | ok c =>
  simp only []
  cases item row 3 with
  | error e => rfl
  | ok i3 =>
  simp only []
  cases item p i3 with
  | error e => rfl
  | ok f =>
  simp only [Except.ok.injEq]
  funext i
  fin_cases i <;> rfl

/-- The cells with an angle out of bounds are the same. -/
theorem badCells_chg (hs : 0 < s) (lo hi : ℝ) (p : List (Fin 3 → ℝ)) (t : List (List ℕ)) : badCells lo hi (p.map (chg s v)) t = badCells lo hi p t := by
  have h : allAngles (p.map (chg s v)) t = allAngles p t := by
    unfold allAngles
    have : t.mapM (rowAngles (p.map (chg s v))) = t.mapM (rowAngles p) := by
      refine mapM_congr fun r _ => ?_
      unfold rowAngles
      rw [corners_map]
      cases corners p r with
      | error e => rfl
      | ok q => simp only [Except.map, bind, Except.bind, pure, Except.pure, cellAngles_chg hs]
    rw [this]
  unfold badCells
  rw [h]

/-! ### The loop -/

/-- The second call of `sliver_removal` works on what the first one works on, scaled by `s` and moved by `v`. -/
structure EnvMove (s : ℝ) (v : Fin 3 → ℝ) (E E' : Env κ ρ) : Prop where
  dt : ∀ k p, E'.dt k (p.map (chg s v)) = onMesh (chg s v) (E.dt k p)
  perturb : ∀ q, E'.perturb (fun i => chg s v (q i)) = E.perturb q
  fd : ∀ x, E'.fd (chg s v x) = s * E.fd x
  h0 : E'.h0 = s * E.h0
  geps : E'.geps = s * E.geps
  deps : E'.deps = s * E.deps
  minDh : E'.minDh = E.minDh
  maxDh : E'.maxDh = E.maxDh
  gamma : E'.gamma = E.gamma
  preserve : E'.preserve = E.preserve
  maxIter : E'.maxIter = E.maxIter
  opts : E'.opts = E.opts

theorem topology_map (hs : 0 < s) {E E' : Env κ ρ} (h : EnvMove s v E E') {st : State} (hw : ∀ r ∈ (E.dt st.count st.p).2, r.length = 4) {x : ℝ} {o : Option ℕ} :
    topology E' ⟨st.count, st.p.map (chg s v), x, o⟩ = (topology E st).map fun y => (y.1.map (chg s v), y.2) := by
  unfold topology
  simp only [h.dt, onMesh, h.geps, h.minDh, h.maxDh, bind, Except.bind, pure, Except.pure]
  rw [removeOutside_map hs h.fd _ _ hw]
  cases Project.removeOutside E.fd E.geps (E.dt st.count st.p).1 (E.dt st.count st.p).2 with
  | error e => rfl
  | ok t =>
    simp only [badCells_chg hs]
    cases badCells E.minDh E.maxDh (E.dt st.count st.p).1 t <;> rfl

theorem assign_map (φ : (Fin 3 → ℝ) → Fin 3 → ℝ) : ∀ (l : List (ℕ × (Fin 3 → ℝ))) (p : List (Fin 3 → ℝ)),
    assign (l.map fun m => (m.1, φ m.2)) (p.map φ) = (assign l p).map φ
  | [], _ => rfl
  | m :: l, p => by
    simp only [List.map_cons, assign]
    rw [← List.map_set, assign_map φ l]

/-- The guard of the Newton steps is idle in the re-projection of a pass (only with `preserve`). -/
def CalmPerturb (s : ℝ) (E : Env κ ρ) (st : State) : Prop := E.preserve = true → ∀ p t bad mv bid, topology E st = .ok (p, t, bad) →
  bad.mapM (moveOf E (adapt E.gamma st.step bad.length st.oldBad) p t) = .ok mv → getBoundaryVertices E.tools.rk t 3 = .ok bid →
  CalmImprove s E.fd E.deps bid 5 0 1 (assign mv p)

theorem moveOf_map {E E' : Env κ ρ} (h : EnvMove s v E E') (step : ℝ) (p : List (Fin 3 → ℝ)) (t : List (List ℕ)) (k : ℕ) :
    moveOf E' step (p.map (chg s v)) t k = (moveOf E step p t k).map fun m => (m.1, chg s v m.2) := by
  unfold moveOf
  simp only [corners_map, bind, Except.bind, pure, Except.pure]
  cases item t k with
  | error e => rfl
  | ok row =>
    simp only []
    cases item row 0 with
    | error e => rfl
    | ok i =>
      simp only []
      cases corners p row with
      | error e => rfl
      | ok q =>
        simp only [Except.map, h.perturb, h.h0, Except.ok.injEq, Prod.mk.injEq, true_and]
        funext j
        simp only [chg]
        ring

theorem perturbAll_map (hs : 0 < s) {E E' : Env κ ρ} (h : EnvMove s v E E') (hrk : E'.tools.rk = E.tools.rk) (step : ℝ) (p : List (Fin 3 → ℝ))
    (t : List (List ℕ)) (bad : List ℕ)
    (hc : E.preserve = true → ∀ mv bid, bad.mapM (moveOf E step p t) = .ok mv → getBoundaryVertices E.tools.rk t 3 = .ok bid →
      CalmImprove s E.fd E.deps bid 5 0 1 (assign mv p)) :
    perturbAll E' step (p.map (chg s v)) t bad = (perturbAll E step p t bad).map (List.map (chg s v)) := by
  unfold perturbAll
  have hm : bad.mapM (moveOf E' step (p.map (chg s v)) t) = (bad.mapM (moveOf E step p t)).map (List.map fun m => (m.1, chg s v m.2)) := by
    rw [← mapM_map_except]
    exact mapM_congr fun k _ => moveOf_map h step p t k
  rw [hm]
  simp only [bind, Except.bind, pure, Except.pure]
  cases hmv : bad.mapM (moveOf E step p t) with
  | error e => rfl
  | ok mv =>
    simp only [Except.map, assign_map, h.preserve]
    by_cases hp : E.preserve = true
    · simp only [hp, if_true]
      unfold Project.improve
      simp only [bind, Except.bind, hrk]
      cases hb : getBoundaryVertices E.tools.rk t 3 with
      | error e => rfl
      | ok bid =>
        simp only [h.deps]
        rw [improveLoop_map hs h.fd 5 0 1 (hc hp mv bid hmv hb)]
        rfl
    · simp only [hp]
      rfl

/-- The outcome of the first call in the units of the second. -/
def onOutcome (φ : (Fin 3 → ℝ) → Fin 3 → ℝ) : Outcome → Outcome
  | .running st => .running ⟨st.count, st.p.map φ, st.step, st.oldBad⟩
  | .done p t b => .done (p.map φ) t b
  | .raised e => .raised e

/-- The outcomes of two calls that differ by the motion `φ`: the same state with moved points while running; at the end the same verdict and the moved mesh except
for the numbering of its vertices and cells; or both raise an exception. -/
def MovedOutcome (φ : (Fin 3 → ℝ) → Fin 3 → ℝ) : Outcome → Outcome → Prop
  | .running st, .running st' => st' = ⟨st.count, st.p.map φ, st.step, st.oldBad⟩
  | .done p t b, .done p' t' b' => b' = b ∧ ∃ σ, SameMesh σ (p.map φ) t p' t'
  | .raised _, .raised _ => True
  | _, _ => False

theorem step_units (hs : 0 < s) {E E' : Env κ ρ} (h : EnvMove s v E E') (hT : ToolsAlong (chg s v) E.tools E'.tools) {st : State}
    (hw : ∀ r ∈ (E.dt st.count st.p).2, r.length = 4) (hc : CalmPerturb s E st) :
    step E' ⟨st.count, st.p.map (chg s v), st.step, st.oldBad⟩ = onOutcome (chg s v) (step E st) := by
  unfold step
  rw [topology_map hs h hw]
  cases ht : topology E st with
  | error e => rfl
  | ok y =>
    obtain ⟨p, t, bad⟩ := y
    simp only [Except.map, h.maxIter, h.opts, h.gamma]
    by_cases hm : (st.count : ℝ) = E.maxIter - 1
    · simp only [if_pos hm]
      rw [termination_map hT]
      cases termination E.tools 0 1 true E.opts p t <;> rfl
    · simp only [if_neg hm]
      by_cases hb : bad = []
      · simp only [if_pos hb]
        rw [fixed_map hT]
        cases fixed E.tools p t <;> rfl
      · simp only [if_neg hb]
        rw [perturbAll_map hs h hT.rk _ p t bad fun hp mv bid h1 h2 => hc hp p t bad mv bid ht h1 h2]
        cases perturbAll E (adapt E.gamma st.step bad.length st.oldBad) p t bad <;> rfl

theorem run_units (hs : 0 < s) {E E' : Env κ ρ} (h : EnvMove s v E E') (hT : ToolsAlong (chg s v) E.tools E'.tools) (n : ℕ) (st : State)
    (hc : ∀ m st', run E m st = .running st' → (∀ r ∈ (E.dt st'.count st'.p).2, r.length = 4) ∧ CalmPerturb s E st') :
    run E' n ⟨st.count, st.p.map (chg s v), st.step, st.oldBad⟩ = onOutcome (chg s v) (run E n st) := by
  induction n generalizing st with
  | zero => rfl
  | succ n ih =>
    unfold run
    rw [step_units hs h hT (hc 0 st rfl).1 (hc 0 st rfl).2]
    cases hst : step E st with
    | raised e => rfl
    | done p t k => rfl
    | running st' =>
      simp only [onOutcome]
      refine ih st' fun m st'' hm => hc (m + 1) st'' ?_
      rw [run, hst]
      exact hm

/-- `fix_mesh` of a moved mesh. -/
theorem fixed_moved {T : Tools 3 κ ρ} (henc : Function.Injective T.enc) (hrk : Function.Injective T.rk) (hpt : 0 < T.ptol) {p : List (Fin 3 → ℝ)} {t : List (List ℕ)}
    (hap : MeshLoop.Apart T.ptol p) (hin : InRange p t) (hs : Simplices 4 t) (v : Fin 3 → ℝ) :
    (∀ q u, fixed T p t = .ok (q, u) → ∃ q' u' σ, fixed T (p.map (chg 1 v)) t = .ok (q', u') ∧ SameMesh σ (q.map (chg 1 v)) u q' u') ∧
      ∀ e, fixed T p t = .error e → ∃ e', fixed T (p.map (chg 1 v)) t = .error e' := by
  have hterm : ∀ p, termination T 0 1 false ⟨true, true, false⟩ p t = fixed T p t := by
    intro p
    unfold termination
    simp [bind, Except.bind, pure, Except.pure]
  have key := termMoved3 (o := ⟨true, true, false⟩) henc hrk hpt rfl hap hin hs v
  refine ⟨fun q u h => ?_, fun e h => ?_⟩
  · obtain ⟨q', u', h', hsame, hc, hc'⟩ := key.ok q u (by rw [hterm]; exact h)
    have hcm := hc.map (chg_one_inj v)
    obtain ⟨σ, hσ⟩ := sameMesh_of_cells hcm.nodup hc'.nodup hcm.inRange hc'.inRange hcm.used hc'.used hsame
    exact ⟨q', u', σ, by rw [← hterm]; exact h', hσ⟩
  · obtain ⟨e', h'⟩ := key.error e (by rw [hterm]; exact h)
    exact ⟨e', by rw [← hterm]; exact h'⟩

/-- In the pass `st` the triangulation is proper and its vertices are farther apart than the tolerance of `fix_mesh`. -/
structure PassOk (E : Env κ ρ) (st : State) : Prop where
  inRange : InRange (E.dt st.count st.p).1 (E.dt st.count st.p).2
  simplices : Simplices 4 (E.dt st.count st.p).2
  apart : MeshLoop.Apart E.tools.ptol (E.dt st.count st.p).1

theorem topology_ok {E : Env κ ρ} {st : State} {p : List (Fin 3 → ℝ)} {t : List (List ℕ)} {bad : List ℕ} (h : topology E st = .ok (p, t, bad)) :
    p = (E.dt st.count st.p).1 ∧ t.Sublist (E.dt st.count st.p).2 := by
  unfold topology at h
  simp only [bind, Except.bind, pure, Except.pure] at h
  cases ht : Project.removeOutside E.fd E.geps (E.dt st.count st.p).1 (E.dt st.count st.p).2 with
  | error e => rw [ht] at h; simp at h
  | ok t' =>
    rw [ht] at h
    simp only at h
    cases hb : badCells E.minDh E.maxDh (E.dt st.count st.p).1 t' with
    | error e => rw [hb] at h; simp at h
    | ok b =>
      rw [hb] at h
      simp only [Except.ok.injEq, Prod.mk.injEq] at h
      obtain ⟨rfl, rfl, rfl⟩ := h
      exact ⟨rfl, removeOutside_sublist ht⟩

theorem step_moved {E E' : Env κ ρ} (h : EnvMove 1 v E E') (hT : E'.tools = E.tools) (henc : Function.Injective E.tools.enc)
    (hrk : Function.Injective E.tools.rk) (hpt : 0 < E.tools.ptol) (hchk : E.opts.performChecks = false) {st : State} (hk : PassOk E st) :
    MovedOutcome (chg 1 v) (step E st) (step E' ⟨st.count, st.p.map (chg 1 v), st.step, st.oldBad⟩) := by
  unfold step
  rw [topology_map one_pos h fun r hr => (hk.simplices r hr).1]
  cases ht : topology E st with
  | error e => exact trivial
  | ok y =>
    obtain ⟨p, t, bad⟩ := y
    obtain ⟨hp, hsub⟩ := topology_ok ht
    have hfix := fixed_moved henc hrk hpt (p := p) (t := t) (by rw [hp]; exact hk.apart) (by rw [hp]; exact fun r hr => hk.inRange r (hsub.subset hr))
      (fun r hr => hk.simplices r (hsub.subset hr)) v
    simp only [Except.map, h.maxIter, h.opts, h.gamma, hT]
    by_cases hm : (st.count : ℝ) = E.maxIter - 1
    · simp only [if_pos hm]
      rw [termination_fixed hchk, termination_fixed hchk]
      cases hf : fixed E.tools p t with
      | error e =>
        obtain ⟨e', he'⟩ := hfix.2 e hf
        rw [he']
        exact trivial
      | ok z =>
        obtain ⟨q, u⟩ := z
        obtain ⟨q', u', σ, h1, h2⟩ := hfix.1 q u hf
        rw [h1]
        exact ⟨rfl, σ, h2⟩
    · simp only [if_neg hm]
      by_cases hb : bad = []
      · simp only [if_pos hb]
        cases hf : fixed E.tools p t with
        | error e =>
          obtain ⟨e', he'⟩ := hfix.2 e hf
          rw [he']
          exact trivial
        | ok z =>
          obtain ⟨q, u⟩ := z
          obtain ⟨q', u', σ, h1, h2⟩ := hfix.1 q u hf
          rw [h1]
          exact ⟨rfl, σ, h2⟩
      · simp only [if_neg hb]
        rw [perturbAll_map one_pos h (by rw [hT]) _ p t bad fun _ mv bid _ _ => calmImprove_one _ _ _ _ _ _ _]
        cases perturbAll E (adapt E.gamma st.step bad.length st.oldBad) p t bad
        · exact trivial
        · exact rfl

theorem run_moved {E E' : Env κ ρ} (h : EnvMove 1 v E E') (hT : E'.tools = E.tools) (henc : Function.Injective E.tools.enc)
    (hrk : Function.Injective E.tools.rk) (hpt : 0 < E.tools.ptol) (hchk : E.opts.performChecks = false) (n : ℕ) (st : State)
    (hc : ∀ m st', run E m st = .running st' → PassOk E st') :
    MovedOutcome (chg 1 v) (run E n st) (run E' n ⟨st.count, st.p.map (chg 1 v), st.step, st.oldBad⟩) := by
  induction n generalizing st with
  | zero => exact rfl
  | succ n ih =>
    unfold run
    have hs := step_moved h hT henc hrk hpt hchk (hc 0 st rfl)
    revert hs
    cases hst : step E st with
    | running st' =>
      cases step E' ⟨st.count, st.p.map (chg 1 v), st.step, st.oldBad⟩ with
      | running s2 =>
        intro h1
        have h1' : s2 = _ := h1
        subst h1'
        refine ih st' fun m st'' hm => hc (m + 1) st'' ?_
        rw [run, hst]
        exact hm
      | done q t k => exact fun h => h.elim
      | raised e => exact fun h => h.elim
    | done q t k =>
      cases step E' ⟨st.count, st.p.map (chg 1 v), st.step, st.oldBad⟩ with
      | running s2 => exact fun h => h.elim
      | done q t k => exact fun h => h
      | raised e => exact fun h => h.elim
    | raised e =>
      cases step E' ⟨st.count, st.p.map (chg 1 v), st.step, st.oldBad⟩ with
      | running s2 => exact fun h => h.elim
      | done q t k => exact fun h => h.elim
      | raised e => exact fun h => h

/-! ### The direction of the perturbation -/

theorem circumGrad_chg (hs : 0 < s) (a b c e : Fin 3 → ℝ) :
    circumGrad (chg s v a) (chg s v b) (chg s v c) (chg s v e) = fun i => s * circumGrad a b c e i := by
  have key : ∀ A B C D : ℝ, s ^ 7 * A / (s ^ 6 * B) - s ^ 10 * C / (s ^ 9 * D) = s * (A / B - C / D) := by
    intro A B C D
    have h6 : s ^ 6 ≠ 0 := by positivity
    have h9 : s ^ 9 ≠ 0 := by positivity
    rw [show s ^ 7 * A = s ^ 6 * (s * A) by ring, show s ^ 10 * C = s ^ 9 * (s * C) by ring, mul_div_mul_left _ _ h6, mul_div_mul_left _ _ h9]
    ring
  have hd : ∀ (x y : Fin 3 → ℝ) (j : Fin 3), chg s v x j - chg s v y j = s * (x j - y j) := fun x y j => congrFun (sub_chg x y) j
  have hN : ∀ i, cN (chg s v b) (chg s v c) (chg s v e) i = s ^ 2 * cN b c e i := by
    intro i; fin_cases i <;> simp [cN, hd] <;> ring
  have hS : ∀ i, cS (chg s v b) (chg s v c) (chg s v e) i = s ^ 3 * cS b c e i := by
    intro i; simp only [cS, hd]; ring
  have hA : cA (chg s v b) (chg s v c) (chg s v e) (chg s v a) = s ^ 3 * cA b c e a := by
    simp only [cA, hd, hN]; ring
  have hD : ∀ i, cD (chg s v b) (chg s v c) (chg s v e) i (chg s v a) = s ^ 4 * cD b c e i a := by
    intro i; fin_cases i <;> simp [cD, hd, hN, hS] <;> ring
  rw [circumGrad_eq, circumGrad_eq]
  funext i
  rw [← key]
  congr 1
  · congr 1
    · simp only [hD, hd, hN]
      generalize cD b c e 0 a = d0; generalize cD b c e 1 a = d1; generalize cD b c e 2 a = d2
      fin_cases i <;> simp [hS] <;> ring
    · rw [hA]; ring
  · congr 1
    · simp only [hD, hN]; ring
    · rw [hA]; ring

/-- `perturb` of one cell: the gradient of the circumradius divided by its length, mesh_generator.py:250-255, for a cell with nonzero volume and gradient. -/
def unitGrad (q : Fin 4 → Fin 3 → ℝ) : Fin 3 → ℝ := fun j => circumGrad (q 0) (q 1) (q 2) (q 3) j / l2 (circumGrad (q 0) (q 1) (q 2) (q 3))

/-- **C128 (direction).** The direction in which a vertex of a sliver is moved depends neither on the unit of length nor on the position. -/
theorem C128_direction (hs : 0 < s) (v : Fin 3 → ℝ) (q : Fin 4 → Fin 3 → ℝ) : unitGrad (fun i => chg s v (q i)) = unitGrad q := by
  unfold unitGrad
  rw [circumGrad_chg hs, l2_smul hs]
  funext j
  exact mul_div_mul_left _ _ hs.ne'

/-! ### The call -/

open Gen in
theorem maxIterOf_chg (kw : Kwargs) : maxIterOf (chgKw s v kw) = maxIterOf kw := by
  unfold maxIterOf
  rw [getOpt_chg kw "max_iter" (by simp)]
  cases getOpt defaults kw "max_iter" <;> rfl

open Gen in
theorem sliverSetup_chg (hs : 0 < s) {boxEval : List ℝ → (Fin 3 → ℝ) → ℝ} (hb : BoxAlong s v boxEval) (dom : DomainArg (Fin 3 → ℝ)) (e : SizeArg (Fin 3 → ℝ))
    (kw : Kwargs) : sliverSetup boxEval 3 (chgDomain s v dom) (chgEdge s v e) (chgKw s v kw) =
      (sliverSetup boxEval 3 dom e kw).map fun x => (chgSetup s v x.1, x.2) := by
  have hneg : ∀ h : ℝ, s * h < 0 ↔ h < 0 := by
    intro h
    constructor
    · intro hh; by_contra hn; exact absurd (mul_nonneg hs.le (not_lt.1 hn)) (not_le.2 hh)
    · exact mul_neg_of_pos_of_neg hs
  unfold sliverSetup
  rw [parseKwargs_chg, getOpt_chg kw "verbose" (by simp), getOpt_chg kw "h0" (by simp), unpackDomain_chg, unpackSizing_chg, maxIterOf_chg]
  simp only [bind, Except.bind, pure, Except.pure]
  cases parseKwargs kw with
  | error e => rfl
  | ok _ =>
  simp only []
  cases getOpt defaults kw "verbose" with
  | error e => rfl
  | ok o =>
  have ho : chgOpt s v "verbose" o = o := rfl
  simp only [Except.map, ho]
  cases asNum o with
  | error e => rfl
  | ok vb =>
  simp only []
  cases selectVerbosity vb with
  | error e => rfl
  | ok talk =>
  simp only [if_neg (show ¬ (3 : ℕ) = 2 by decide)]
  cases hx : unpackDomain dom kw with
  | error e => rfl
  | ok x =>
  obtain ⟨fd, b0, cs⟩ := x
  have hc0 : Checked b0 := unpackDomain_checked hx
  simp only []
  cases hz : unpackSizing e with
  | error e => rfl
  | ok z =>
  have hc1 : Checked z.bbox := unpackSizing_checked hz
  simp only [chgSizing]
  rw [mergeBbox_chg hs hc0 hc1]
  cases mergeBbox b0 z.bbox with
  | error e => rfl
  | ok bb =>
  simp only [Except.map]
  have hR := rebuild_chg (s := s) (v := v) hs hc0 hc1
  clear hx hz
  by_cases hRb : Rebuild b0 z.bbox
  · have hRb' := hR.2 hRb
    rw [if_pos hRb, if_pos hRb', boxEval_chg hs hb]
    cases z.hmin with
    | some h =>
      simp only [Option.map_some, hneg]
      by_cases hn : h < 0
      · simp only [if_pos hn]; rfl
      · simp only [if_neg hn]
        cases maxIterOf kw <;> rfl
    | none =>
      simp only [Option.map_none]
      cases getOpt defaults kw "h0" with
      | error e => rfl
      | ok o =>
        simp only [asNum_chg]
        cases asNum o with
        | error e => rfl
        | ok h =>
          simp only [Except.map, hneg]
          by_cases hn : h < 0
          · simp only [if_pos hn]; rfl
          · simp only [if_neg hn]
            cases maxIterOf kw <;> rfl
  · have hRb' := mt hR.1 hRb
    rw [if_neg hRb, if_neg hRb']
    cases z.hmin with
    | some h =>
      simp only [Option.map_some, hneg]
      by_cases hn : h < 0
      · simp only [if_pos hn]; rfl
      · simp only [if_neg hn]
        cases maxIterOf kw <;> rfl
    | none =>
      simp only [Option.map_none]
      cases getOpt defaults kw "h0" with
      | error e => rfl
      | ok o =>
        simp only [asNum_chg]
        cases asNum o with
        | error e => rfl
        | ok h =>
          simp only [Except.map, hneg]
          by_cases hn : h < 0
          · simp only [if_pos hn]; rfl
          · simp only [if_neg hn]
            cases maxIterOf kw <;> rfl

/-- The call `R` with the triangulator, the perturbation and the tools of the other units. -/
def chgRest (T' : Tools 3 κ ρ) (dt' : ℕ → List (Fin 3 → ℝ) → List (Fin 3 → ℝ) × List (List ℕ)) (R : Rest κ ρ) : Rest κ ρ := { R with tools := T', dt := dt' }

/-- What a call gives, in the other units. -/
def onResult (φ : (Fin 3 → ℝ) → Fin 3 → ℝ) : Result → Result
  | .flags a b => .flags a b
  | .loop o => .loop (onOutcome φ o)

/-- Two calls that differ by the motion `φ` give the same flags or the moved outcome. -/
def MovedResult (φ : (Fin 3 → ℝ) → Fin 3 → ℝ) : Result → Result → Prop
  | .flags a b, .flags a' b' => a' = a ∧ b' = b
  | .loop o, .loop o' => MovedOutcome φ o o'
  | _, _ => False

theorem envMove_of (hs : 0 < s) {R : Rest κ ρ} {T' : Tools 3 κ ρ} {dt' : ℕ → List (Fin 3 → ℝ) → List (Fin 3 → ℝ) × List (List ℕ)}
    (hdt : ∀ k p, dt' k (p.map (chg s v)) = onMesh (chg s v) (R.dt k p)) (hper : ∀ q, R.perturb (fun i => chg s v (q i)) = R.perturb q)
    (S : Gen.Setup (Fin 3 → ℝ)) (m : ℝ) : EnvMove s v (envOf R S m) (envOf (chgRest T' dt' R) (chgSetup s v S) m) where
  dt := hdt
  perturb := hper
  fd := fun x => by simp only [envOf, chgSetup, lenFun, unchg_chg hs]
  h0 := rfl
  geps := by simp only [envOf, chgSetup, chgRest]; ring
  deps := by simp only [envOf, chgSetup, chgRest]; ring
  minDh := rfl
  maxDh := rfl
  gamma := rfl
  preserve := rfl
  maxIter := rfl
  opts := rfl

/-- **C128 (units).** Express a call of `sliver_removal` in another unit of length: multiply the points, the coordinates of the domain, its signed distances, the
sizes and the bounding boxes by `s > 0`. The outcome is the same in the other unit, pass by pass: the same error, or the same cells with vertices multiplied by
`s` and the same verdict. Assumed: the triangulator commutes with the change and gives tetrahedra, the direction of the perturbation does not depend on the
unit (`C128_direction`), and, only with `preserve`, the guard of the Newton steps is idle. -/
theorem C128_units (hs : 0 < s) {rank : ℕ} {points : List (Fin 3 → ℝ)} {domain : Gen.DomainArg (Fin 3 → ℝ)} {edge : Gen.SizeArg (Fin 3 → ℝ)} {kw : Gen.Kwargs}
    {R : Rest κ ρ} {T' : Tools 3 κ ρ} {dt' : ℕ → List (Fin 3 → ℝ) → List (Fin 3 → ℝ) × List (List ℕ)} (hT : ToolsAlong (chg s 0) R.tools T')
    (hdt : ∀ k p, dt' k (p.map (chg s 0)) = onMesh (chg s 0) (R.dt k p)) (h4 : ∀ k p, ∀ r ∈ (R.dt k p).2, r.length = 4)
    (hper : ∀ q, R.perturb (fun i => chg s 0 (q i)) = R.perturb q)
    (hc : R.preserve = true → ∀ S M m st, Gen.sliverSetup Gen.box3 3 domain edge kw = .ok (S, M) →
      run (envOf R S M) m (start points) = .running st → CalmPerturb s (envOf R S M) st) (n : ℕ) :
    sliverRemoval rank Gen.box3 (points.map (chg s 0)) (chgDomain s 0 domain) (chgEdge s 0 edge) (chgKw (d := 3) s 0 kw) (chgRest T' dt' R) n =
      onResult (chg s 0) (sliverRemoval rank Gen.box3 points domain edge kw R n) := by
  unfold sliverRemoval
  by_cases hr : rank > 0
  · rw [if_pos hr, if_pos hr]; rfl
  rw [if_neg hr, if_neg hr, sliverSetup_chg hs (C97_box3 hs 0)]
  cases hS : Gen.sliverSetup Gen.box3 3 domain edge kw with
  | error e => rfl
  | ok x =>
    obtain ⟨S, M⟩ := x
    simp only [Except.map, onResult, Result.loop.injEq]
    refine run_units hs (envMove_of hs hdt hper S M) hT n (start points) fun m st hm => ⟨h4 _ _, fun hp => ?_⟩
    exact hc hp S M m st hS hm hp

/-- **C128 (position).** Move the points, the domain and the sizes of a call of `sliver_removal` by `v`, and nothing else. The two calls do the same thing: they
reach the moved points in every pass, they end in the same pass with the same verdict and the moved mesh, except for the numbering of its vertices and cells, or
both raise an exception. Assumed: the triangulator commutes with the motion, and in every pass gives tetrahedra with vertices farther apart than the tolerance of
`fix_mesh` (`PassOk`); `perform_checks` is off, as by default. -/
theorem C128_moved (v : Fin 3 → ℝ) {rank : ℕ} {points : List (Fin 3 → ℝ)} {domain : Gen.DomainArg (Fin 3 → ℝ)} {edge : Gen.SizeArg (Fin 3 → ℝ)} {kw : Gen.Kwargs}
    {R : Rest κ ρ} {dt' : ℕ → List (Fin 3 → ℝ) → List (Fin 3 → ℝ) × List (List ℕ)} (henc : Function.Injective R.tools.enc)
    (hrk : Function.Injective R.tools.rk) (hpt : 0 < R.tools.ptol) (hchk : R.opts.performChecks = false)
    (hdt : ∀ k p, dt' k (p.map (chg 1 v)) = onMesh (chg 1 v) (R.dt k p)) (hper : ∀ q, R.perturb (fun i => chg 1 v (q i)) = R.perturb q)
    (hc : ∀ m st, sliverRemoval rank Gen.box3 points domain edge kw R m = .loop (.running st) → InRange (R.dt st.count st.p).1 (R.dt st.count st.p).2 ∧
      Simplices 4 (R.dt st.count st.p).2 ∧ MeshLoop.Apart R.tools.ptol (R.dt st.count st.p).1) (n : ℕ) :
    MovedResult (chg 1 v) (sliverRemoval rank Gen.box3 points domain edge kw R n)
      (sliverRemoval rank Gen.box3 (points.map (chg 1 v)) (chgDomain 1 v domain) (chgEdge 1 v edge) (chgKw 1 v kw) (chgRest R.tools dt' R) n) := by
  unfold sliverRemoval at hc ⊢
  by_cases hr : rank > 0
  · rw [if_pos hr, if_pos hr]; exact ⟨rfl, rfl⟩
  simp only [if_neg hr] at hc
  rw [if_neg hr, if_neg hr, sliverSetup_chg one_pos (C97_box3 one_pos v)]
  cases hS : Gen.sliverSetup Gen.box3 3 domain edge kw with
  | error e => exact trivial
  | ok x =>
    obtain ⟨S, M⟩ := x
    simp only [hS, Result.loop.injEq] at hc
    simp only [Except.map, MovedResult]
    refine run_moved (envMove_of one_pos hdt hper S M) rfl henc hrk hpt hchk n (start points) fun m st hm => ?_
    obtain ⟨h1, h2, h3⟩ := hc m st hm
    exact ⟨h1, h2, h3⟩

/-- A case of `C128_units`: a call on any points, domain and sizes, with the perturbation of the code, in feet instead of metres; any number of passes. -/
example {κ ρ : Type} [LinearOrder κ] [LinearOrder ρ] {enc key2 : (Fin 3 → ℝ) → κ} {rk : List ℕ → ρ} (hrk : Function.Injective rk) {srt : List (ℕ × ℕ) → List (ℕ × ℕ)}
    {ptol : ℝ} {solve solve' : (n : ℕ) → Matrix (Fin n) (Fin n) ℝ → Matrix (Fin n) (Fin 3) ℝ → Matrix (Fin n) (Fin 3) ℝ} (hso : SolveAlong (1000 / 3048 * 10) solve solve')
    (points : List (Fin 3 → ℝ)) (domain : Gen.DomainArg (Fin 3 → ℝ)) (edge : Gen.SizeArg (Fin 3 → ℝ)) (kw : Gen.Kwargs) (o : TermOpts) (n : ℕ) :
    let R : Rest κ ρ := ⟨1 / 10, 10, 180, 2, false, o, tools3 enc key2 rk srt ptol solve, fun _ a => (a, [[0, 1, 2, 3]]), unitGrad, 1 / 2 ^ 26⟩
    let s : ℝ := 1000 / 3048 * 10
    sliverRemoval 0 Gen.box3 (points.map (chg s 0)) (chgDomain s 0 domain) (chgEdge s 0 edge) (chgKw (d := 3) s 0 kw)
      (chgRest (tools3 (fun y => enc (unchg s 0 y)) (fun y => key2 (unchg s 0 y)) rk srt ptol solve') (fun _ a => (a, [[0, 1, 2, 3]])) R) n =
      onResult (chg s 0) (sliverRemoval 0 Gen.box3 points domain edge kw R n) := by
  intro R s
  have hs : 0 < s := by norm_num [s]
  exact C128_units hs (C97_tools3 hs hrk hso).2 (fun k p => rfl) (fun k p r hr => by simp [R] at hr; simp [hr]) (fun q => C128_direction hs 0 q)
    (fun h => by simp [R] at h) n

/-- A case of `C128_moved`: one tetrahedron, one pass, moved by any `v`. -/
example {κ ρ : Type} [LinearOrder κ] [LinearOrder ρ] (v : Fin 3 → ℝ) (domain : Gen.DomainArg (Fin 3 → ℝ)) (edge : Gen.SizeArg (Fin 3 → ℝ)) (R : Rest κ ρ)
    (hdt : R.dt = fun _ a => (a, [[0, 1, 2, 3]])) (henc : Function.Injective R.tools.enc)
    (hrk : Function.Injective R.tools.rk) (hpt : R.tools.ptol = 1 / 1000) (hper : R.perturb = unitGrad) (hchk : R.opts.performChecks = false) (n : ℕ) :
    MovedResult (chg 1 v) (sliverRemoval 0 Gen.box3 [![0, 0, 0], ![1, 0, 0], ![0, 1, 0], ![0, 0, 1]] domain edge Generate.kw1 R n)
      (sliverRemoval 0 Gen.box3 ([![0, 0, 0], ![1, 0, 0], ![0, 1, 0], ![0, 0, 1]].map (chg 1 v)) (chgDomain 1 v domain) (chgEdge 1 v edge)
        (chgKw 1 v Generate.kw1) (chgRest R.tools (fun _ a => (a, [[0, 1, 2, 3]])) R) n) := by
  refine C128_moved v henc hrk (by rw [hpt]; norm_num) hchk (fun k p => by rw [hdt]; rfl) (fun q => by rw [hper]; exact C128_direction one_pos v q) (fun m st hs => ?_) n
  have hs0 : st.p = [![0, 0, 0], ![1, 0, 0], ![0, 1, 0], ![0, 0, 1]] := by
    unfold sliverRemoval at hs
    rw [if_neg (by simp)] at hs
    cases hS : Gen.sliverSetup Gen.box3 3 domain edge Generate.kw1 with
    | error e => simp [hS] at hs
    | ok x =>
      obtain ⟨S, M⟩ := x
      have hm : Gen.maxIterOf Generate.kw1 = .ok M := (setup_more hS).1
      have hm1 : M = 1 := by
        have : Gen.maxIterOf Generate.kw1 = .ok 1 := by
          simp [Generate.kw1, Gen.maxIterOf, Gen.getOpt, Gen.asNum, Gen.Num.val, bind, Except.bind, pure, Except.pure]
        rw [this] at hm; exact (Except.ok.inj hm).symm
      subst hm1
      simp only [hS, Result.loop.injEq] at hs
      cases m with
      | zero => simp only [run, Outcome.running.injEq] at hs; rw [← hs]; rfl
      | succ k =>
        exfalso
        simp only [run] at hs
        have : ∀ w, step (envOf R S 1) (start [![0, 0, 0], ![1, 0, 0], ![0, 1, 0], ![0, 0, 1]]) ≠ .running w := by
          intro w hw
          have e : (((start [![0, 0, 0], ![1, 0, 0], ![0, 1, 0], ![0, 0, 1]]).count : ℕ) : ℝ) = (envOf R S 1).maxIter - 1 := by simp [envOf, start]
          unfold step at hw
          split at hw
          · simp at hw
          · rw [if_pos e] at hw
            split at hw <;> simp at hw
        cases hst : step (envOf R S 1) (start [![0, 0, 0], ![1, 0, 0], ![0, 1, 0], ![0, 0, 1]]) with
        | running w => exact this w hst
        | done q t k => rw [hst] at hs; simp at hs
        | raised e => rw [hst] at hs; simp at hs
  have hdt' : R.dt st.count st.p = ([![0, 0, 0], ![1, 0, 0], ![0, 1, 0], ![0, 0, 1]], [[0, 1, 2, 3]]) := by rw [hs0, hdt]
  rw [hdt', hpt]
  refine ⟨?_, ?_, ?_, 1, ?_, ?_⟩
  · intro r hr i hi; simp only [List.mem_singleton] at hr; subst hr; simp at hi ⊢; omega
  · intro r hr; simp only [List.mem_singleton] at hr; subst hr; simp
  · simp only [List.nodup_cons, List.mem_cons, List.not_mem_nil, or_false, not_or, List.nodup_nil, and_true, not_false_eq_true]
    refine ⟨⟨?_, ?_, ?_⟩, ⟨?_, ?_⟩, ?_⟩ <;> (intro h; first | (have := congrFun h 0; simp at this; done) | (have := congrFun h 1; simp at this; done) | (have := congrFun h 2; simp at this; done))
  · intro x hx y hy k
    simp only [List.mem_cons, List.not_mem_nil, or_false] at hx hy
    rcases hx with rfl | rfl | rfl | rfl <;> rcases hy with rfl | rfl | rfl | rfl <;> fin_cases k <;> simp
  · intro x hx y hy hne
    simp only [List.mem_cons, List.not_mem_nil, or_false] at hx hy
    rcases hx with rfl | rfl | rfl | rfl <;> rcases hy with rfl | rfl | rfl | rfl <;>
      first
        | exact absurd rfl hne
        | (refine ⟨0, ?_⟩; norm_num; done)
        | (refine ⟨1, ?_⟩; norm_num; done)
        | (refine ⟨2, ?_⟩; simp; norm_num; done)

end

end SM.Sliver
