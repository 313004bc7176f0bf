import Verif.Props.SizingMono

/-!
# C100: the unit of length does not matter for the sizing function

All lengths (bbox, velocities per second, `hmin`, `hmax`, `grad`, `domain_pad`) are multiplied by `s`; times,
frequencies, counts and ratios (`dt`, `freq`, `wl`, `grade`, `cr_max`, `space_order`) are kept.
-/

namespace SM.Limgrad

variable {K : Type} [Field K] [LinearOrder K] [IsStrictOrderedRing K]

/-- All values times `s`. -/
def St.scale (s : K) (x : St K) : St K := ⟨fun i => s * x.val i, x.mark⟩

theorem relax_scale {s : K} (hs : 0 < s) (step ftol : K) (iter : ℤ) (x : St K) (a b : ℕ) :
    relax (s * step) (s * ftol) iter (x.scale s) a b = (relax step ftol iter x a b).scale s := by
  have l (u v : K) : (s * u > s * v) ↔ u > v := mul_lt_mul_iff_right₀ hs
  have e (u v w : K) : s * u + s * v + s * w = s * (u + v + w) := by ring
  unfold relax
  simp only [St.scale, e, l, ← mul_add]
  split_ifs
  · congr 1; funext i
    by_cases h : i = a
    · subst h; simp
    · simp [Function.update_of_ne h]
  · rfl
  · congr 1; funext i
    by_cases h : i = b
    · subst h; simp
    · simp [Function.update_of_ne h]
  · rfl

theorem visit_scale {s : K} (hs : 0 < s) (step ftol : K) (nb : ℕ → List ℕ) (iter : ℤ) (x : St K) (a : ℕ) :
    visit (s * step) (s * ftol) nb iter (x.scale s) a = (visit step ftol nb iter x a).scale s := by
  unfold visit
  induction nb a generalizing x with
  | nil => rfl
  | cons b l ih => simp only [List.foldl_cons, relax_scale hs, ih]

theorem sweep_scale {s : K} (hs : 0 < s) (step ftol : K) (nb : ℕ → List ℕ) (iter : ℤ) (l : List ℕ) (x : St K) :
    sweep (s * step) (s * ftol) nb iter l (x.scale s) = (sweep step ftol nb iter l x).scale s := by
  unfold sweep
  induction l generalizing x with
  | nil => rfl
  | cons b l ih => simp only [List.foldl_cons, visit_scale hs, ih]

theorem loop_scale {s : K} (hs : 0 < s) (step ftol : K) (nb : ℕ → List ℕ) (N : ℕ) :
    ∀ (n : ℕ) (iter : ℤ) (x : St K), loop (s * step) (s * ftol) nb N n iter (x.scale s) =
      ((loop step ftol nb N n iter x).1.scale s, (loop step ftol nb N n iter x).2)
  | 0, _, _ => rfl
  | n + 1, iter, x => by
    have e : (x.scale s).mark = x.mark := rfl
    simp only [loop, e]
    split_ifs
    · rfl
    · rw [sweep_scale hs]
      exact loop_scale hs step ftol nb N n (iter + 1) _

theorem foldl_min_scale {s : K} (hs : 0 < s) (f : ℕ → K) (l : List ℕ) (x : K) :
    l.foldl (fun m i => min m (s * f i)) (s * x) = s * l.foldl (fun m i => min m (f i)) x := by
  induction l generalizing x with
  | nil => rfl
  | cons a l ih => simp only [List.foldl_cons, ← mul_min_of_nonneg _ _ hs.le, ih]

theorem foldl_max_scale {s : K} (hs : 0 < s) (f : ℕ → K) (l : List ℕ) (x : K) :
    l.foldl (fun m i => max m (s * f i)) (s * x) = s * l.foldl (fun m i => max m (f i)) x := by
  induction l generalizing x with
  | nil => rfl
  | cons a l ih => simp only [List.foldl_cons, ← mul_max_of_nonneg _ _ hs.le, ih]

/-- The limiter is homogeneous. -/
theorem enforceGradation_scale {s : K} (hs : 0 < s) (imax d0 d1 d2 : ℕ) (seps : K) (A : ℕ → ℕ → ℕ → K)
    (grade elen : K) :
    enforceGradation imax d0 d1 d2 seps (fun i j k => s * A i j k) grade (s * elen) =
      (enforceGradation imax d0 d1 d2 seps A grade elen).map fun r => (fun i j k => s * r.1 i j k, r.2) := by
  unfold enforceGradation
  split_ifs
  · rfl
  · rfl
  · have h1 : minElement (d0 * d1 * d2) (flattenF d0 d1 fun i j k => s * A i j k) * seps =
        s * (minElement (d0 * d1 * d2) (flattenF d0 d1 A) * seps) := by
      rw [← mul_assoc]; congr 1
      exact foldl_min_scale hs (flattenF d0 d1 A) _ _
    have h2 := loop_scale hs (elen * grade) (minElement (d0 * d1 * d2) (flattenF d0 d1 A) * seps)
      (nbrs d0 d1 d2) (d0 * d1 * d2) imax 0 ⟨flattenF d0 d1 A, fun _ => -1⟩
    have h3 : (⟨flattenF d0 d1 fun i j k => s * A i j k, fun _ => -1⟩ : St K) =
        St.scale s ⟨flattenF d0 d1 A, fun _ => -1⟩ := rfl
    simp only [cLimgrad, cLimgradOn, h1, mul_assoc s elen grade, h3, h2, Except.map]
    rfl

end SM.Limgrad

namespace SM.Sizing

variable {K : Type} [Field K] [LinearOrder K] [IsStrictOrderedRing K]

/-- A value in another unit. -/
def Fl.scale (s : K) : Fl K → Fl K
  | .nan => .nan
  | .ninf => .ninf
  | .fin x => .fin (s * x)
  | .pinf => .pinf

theorem fdiv_scale {s : K} (hs : 0 < s) (x y : K) : fdiv (s * x) y = (fdiv x y).scale s := by
  unfold fdiv
  simp only [mul_eq_zero, hs.ne', false_or, mul_pos_iff_of_pos_left hs]
  split_ifs <;> simp [Fl.scale, mul_div_assoc]

theorem fmin_scale {s : K} (hs : 0 < s) (x y : Fl K) : fmin (x.scale s) (y.scale s) = (fmin x y).scale s := by
  cases x <;> cases y <;> simp [fmin, Fl.scale, mul_min_of_nonneg _ _ hs.le]

theorem clamp_scale {s : K} (hs : 0 < s) (hmin hmax : K) (x : Fl K) :
    clamp (s * hmin) (s * hmax) (x.scale s) = (clamp hmin hmax x).scale s := by
  cases x with
  | nan => simp [clamp_nan, Fl.scale]
  | ninf => simp [clamp_ninf, Fl.scale, mul_min_of_nonneg _ _ hs.le]
  | pinf => simp [clamp_pinf, Fl.scale]
  | fin y => simp [clamp_fin, Fl.scale, mul_min_of_nonneg _ _ hs.le, mul_max_of_nonneg _ _ hs.le]

theorem clamp_absorb_right {hmin hmax c : K} (h : hmin ≤ hmax) (hc : hmax ≤ c) (x : Fl K) :
    clamp hmin hmax (fmin x (.fin c)) = clamp hmin hmax x := by
  cases x with
  | nan => simp [fmin]
  | ninf => simp [fmin]
  | pinf => simp [fmin, clamp_fin, clamp_pinf, max_eq_right (h.trans hc), min_eq_left hc]
  | fin y =>
    simp only [fmin, clamp_fin, Fl.fin.injEq]
    rcases le_total y c with h' | h'
    · rw [min_eq_left h']
    · rw [min_eq_right h', max_eq_right (h.trans hc), min_eq_left hc, max_eq_right ((h.trans hc).trans h'),
        min_eq_left (hc.trans h')]

theorem fmin_comm (x y : Fl K) : fmin x y = fmin y x := by
  cases x <;> cases y <;> simp [fmin, min_comm]

theorem amax_scale {s : K} (hs : 0 < s) (d0 d1 d2 : ℕ) (A : Arr K) :
    amax d0 d1 d2 (fun i j k => s * A i j k) = s * amax d0 d1 d2 A :=
  Limgrad.foldl_max_scale hs (Limgrad.flattenF d0 d1 A) _ _

theorem winVar_scale (s : K) (d0 d1 d2 : ℕ) (w : ℕ × ℕ × ℕ) (V : Arr K) :
    winVar d0 d1 d2 w (fun i j k => s * V i j k) = fun i j k => s ^ 2 * winVar d0 d1 d2 w V i j k := by
  funext i j k
  have e : (fun i j k => (s * V i j k) ^ 2) = fun i j k => s ^ 2 * V i j k ^ 2 := by
    funext i j k; ring
  simp only [winVar, e, ufilt_smul]
  ring

/-- All length-valued options times `s`. -/
def Opts.scale (s : K) (o : Opts K) : Opts K :=
  { o with hmin := s * o.hmin, hmax := s * o.hmax, grad := s * o.grad, domainPad := s * o.domainPad }

/-- A bbox times `s`. -/
def Bbox.scale (s : K) : Bbox K → Bbox K
  | .two z0 z1 x0 x1 => .two (s * z0) (s * z1) (s * x0) (s * x1)
  | .three z0 z1 x0 x1 y0 y1 => .three (s * z0) (s * z1) (s * x0) (s * x1) (s * y0) (s * y1)

/-- A sizing function in another unit. -/
def Out.scale (s : K) (out : Out K) : Out K :=
  ⟨out.d0, out.d1, out.d2, fun i j k => s * out.cell i j k, fun i j k => s * out.vp i j k, out.bbox.scale s⟩

theorem gradientSizing_scale {s : K} (hs : 0 < s) (d0 d1 d2 : ℕ) (w : ℕ × ℕ × ℕ) (V : Arr K) {grad : K}
    (hg : grad ≠ 0) :
    gradientSizing d0 d1 d2 w (fun i j k => s * V i j k) (s * grad) =
      (gradientSizing d0 d1 d2 w V grad).map fun b i j k => (b i j k).scale s := by
  have hs2 : 0 < s ^ 2 := by positivity
  unfold gradientSizing
  have e0 : (s * grad = 0) = (grad = 0) := by simp [hs.ne']
  have e1 : (s * grad < 0) = (grad < 0) := by simp [mul_neg_iff, hs, hs.le, not_lt.2 hs.le]
  simp only [e0, e1, winVar_scale, amax_scale hs2]
  rw [if_neg hg, if_neg hg]
  split_ifs with h2 h3 h4 h5
  · rfl
  · simp only [Except.map, Fl.scale]
  · exact absurd ((mul_eq_zero.1 h3).resolve_left hs2.ne') h4
  · exact absurd (by rw [h5, mul_zero]) h3
  · have e : ∀ i j k, s ^ 2 * winVar d0 d1 d2 w V i j k / (s ^ 2 * amax d0 d1 d2 (winVar d0 d1 d2 w V)) =
        winVar d0 d1 d2 w V i j k / amax d0 d1 d2 (winVar d0 d1 d2 w V) := fun i j k =>
      mul_div_mul_left _ _ hs2.ne'
    simp only [e, Except.map, fdiv_scale hs]

theorem wavelengthSizing_scale {s : K} (hs : 0 < s) (V : Arr K) {wl freq : K} (hw : wl ≠ 0) :
    wavelengthSizing (fun i j k => s * V i j k) wl freq =
      (wavelengthSizing V wl freq).map fun b i j k => (b i j k).scale s := by
  unfold wavelengthSizing
  rw [if_neg hw, if_neg hw]
  split_ifs
  · rfl
  · rfl
  · simp only [Except.map, fdiv_scale hs]

/-- The clamped request in another unit. -/
theorem request_scale {s : K} (hs : 0 < s) (d0 d1 d2 : ℕ) (o : Opts K) (V : Arr K)
    (h99 : (o.wl ≠ 0 ∧ o.grad ≠ 0) ∨ (o.hmin ≤ o.hmax ∧ o.hmax ≤ 99999 ∧ s * o.hmax ≤ 99999)) :
    ((requested d0 d1 d2 (o.scale s) (fun i j k => s * V i j k)).map
        fun r i j k => clamp (s * o.hmin) (s * o.hmax) (r i j k)) =
      (requested d0 d1 d2 o V).map fun r i j k => (clamp o.hmin o.hmax (r i j k)).scale s := by
  have e1 : (0 < o.wl ∨ 0 < s * o.grad) = (0 < o.wl ∨ 0 < o.grad) := by
    simp [mul_pos_iff_of_pos_left hs]
  unfold requested
  simp only [Opts.scale, e1]
  split_ifs with hact
  · by_cases hw : o.wl = 0
    · obtain ⟨hmm, h9, h9'⟩ := h99.resolve_left fun h => h.1 hw
      have hg : o.grad ≠ 0 := by
        rintro h; rw [hw, h] at hact; simp at hact
      have a1 : ∀ W : Arr K, wavelengthSizing W o.wl o.freq = .ok fun _ _ _ => .fin 99999 := fun W => by
        unfold wavelengthSizing; rw [if_pos hw]
      rw [a1, a1, gradientSizing_scale hs _ _ _ _ _ hg]
      cases gradientSizing d0 d1 d2 o.window V o.grad with
      | error e => rfl
      | ok b =>
        simp only [Except.map, Except.ok.injEq]
        funext i j k
        rw [fmin_comm, clamp_absorb_right (mul_le_mul_of_nonneg_left hmm hs.le) h9', clamp_scale hs, fmin_comm,
          clamp_absorb_right hmm h9]
    · rw [wavelengthSizing_scale hs _ hw]
      cases wavelengthSizing V o.wl o.freq with
      | error e => rfl
      | ok a =>
        by_cases hg : o.grad = 0
        · obtain ⟨hmm, h9, h9'⟩ := h99.resolve_left fun h => h.2 hg
          have b1 : ∀ (W : Arr K) (g : K), g = 0 → gradientSizing d0 d1 d2 o.window W g =
              .ok fun _ _ _ => .fin 99999 := fun W g hg => by
            unfold gradientSizing; rw [if_pos hg]
          rw [b1 _ _ hg, b1 _ _ (by rw [hg, mul_zero])]
          simp only [Except.map, Except.ok.injEq]
          funext i j k
          rw [clamp_absorb_right (mul_le_mul_of_nonneg_left hmm hs.le) h9', clamp_scale hs,
            clamp_absorb_right hmm h9]
        · rw [gradientSizing_scale hs _ _ _ _ _ hg]
          cases gradientSizing d0 d1 d2 o.window V o.grad with
          | error e => rfl
          | ok b =>
            simp only [Except.map, Except.ok.injEq]
            funext i j k
            rw [fmin_scale hs, clamp_scale hs]
  · simp only [Except.map, Except.ok.injEq]
    funext i j k
    rw [← clamp_scale hs]; rfl

/-- The value is a finite number. -/
def Fl.isFin : Fl K → Bool
  | .fin _ => true
  | _ => false

/-- The number. -/
def Fl.get : Fl K → K
  | .fin x => x
  | _ => 0

theorem finite_eq (d0 d1 d2 : ℕ) (A : Arr (Fl K)) : finite d0 d1 d2 A =
    if (List.range d0).all fun i => (List.range d1).all fun j => (List.range d2).all fun k => (A i j k).isFin
    then some fun i j k => (A i j k).get else none := rfl

theorem finite_scale {s : K} (d0 d1 d2 : ℕ) (A : Arr (Fl K)) :
    finite d0 d1 d2 (fun i j k => (A i j k).scale s) =
      (finite d0 d1 d2 A).map fun c i j k => s * c i j k := by
  have e : ∀ x : Fl K, (x.scale s).isFin = x.isFin := by intro x; cases x <;> rfl
  have e' : ∀ x : Fl K, (x.scale s).get = s * x.get := by
    intro x; cases x <;> simp [Fl.scale, Fl.get]
  simp only [finite_eq, e, e']
  split_ifs <;> rfl

theorem courant_scale {s : K} (hs : 0 < s) (dim : ℕ) (vp cell : Arr K) (crMax dt so : K) :
    courant dim (fun i j k => s * vp i j k) (fun i j k => s * cell i j k) crMax dt so =
      (courant dim vp cell crMax dt so).map fun c i j k => s * c i j k := by
  unfold courant
  split_ifs <;> try rfl
  simp only [Except.map, Except.ok.injEq]
  funext i j k
  have e1 : s * vp i j k * dt / (dim * (s * cell i j k)) = vp i j k * dt / (dim * cell i j k) := by
    rw [mul_assoc s, mul_left_comm (dim : K) s, mul_div_mul_left _ _ hs.ne']
  rw [e1]
  split_ifs
  · ring
  · rfl

theorem pad3_scale (s : K) (st : Style) (m : K) (d0 d1 d2 b0 b1 b2 : ℕ) (A : Arr K) :
    pad3 st (s * m) d0 d1 d2 b0 b1 b2 (fun i j k => s * A i j k) =
      fun i j k => s * pad3 st m d0 d1 d2 b0 b1 b2 A i j k := by
  funext i j k
  have := pad3_lin st s 0 m 0 d0 d1 d2 b0 b1 b2 A (fun _ _ _ => 0) i j k
  simpa using this

variable [FloorSemiring K]

theorem buildPad_scale {s : K} (hs : 0 < s) (d0 d1 d2 : ℕ) (cell vp : Arr K) (bb : Bbox K) (pad : K)
    (style : String) :
    buildPad d0 d1 d2 (fun i j k => s * cell i j k) (fun i j k => s * vp i j k) (bb.scale s) (s * pad) style =
      (buildPad d0 d1 d2 cell vp bb pad style).map (Out.scale s) := by
  have e1 : (s * pad < 0) = (pad < 0) := by simp [mul_neg_iff, hs, not_lt.2 hs.le]
  have e2 : (0 < s * pad) = (0 < pad) := by simp [mul_pos_iff_of_pos_left hs]
  have ep : ∀ (a b : K) (n : ℕ), padCells (s * pad) (s * a - s * b) n = padCells pad (a - b) n := by
    intro a b n
    unfold padCells
    rw [← mul_sub, mul_div_assoc s (a - b), mul_div_mul_left _ _ hs.ne']
  unfold buildPad
  simp only [e1, e2]
  split_ifs
  · rfl
  · cases parseStyle style with
    | error e => rfl
    | ok st =>
      cases bb <;> simp only [Bbox.scale, amax_scale hs, pad3_scale, ep, Except.map, Out.scale, mul_sub, mul_add]
  · rfl

omit [LinearOrder K] [IsStrictOrderedRing K] [FloorSemiring K] in
theorem parseBbox_scale (s : K) (bbox : List K) :
    parseBbox (bbox.map (s * ·)) = (parseBbox bbox).map (Bbox.scale s) := by
  match bbox with
  | [] => rfl
  | [_] => rfl
  | [_, _] => rfl
  | [_, _, _] => rfl
  | [_, _, _, _] => rfl
  | [_, _, _, _, _] => rfl
  | [_, _, _, _, _, _] => rfl
  | _ :: _ :: _ :: _ :: _ :: _ :: _ :: _ => rfl

/-- **C100.** Let all lengths be multiplied by `s > 0` (bbox, velocities, `hmin`, `hmax`, `grad`, `domain_pad`).
If no velocity is taken for water in either unit, and either both criteria `wl` and `grad` are on or the sizes are
below 99999 in both units, then the call behaves exactly alike: it raises the same exception or returns the same
sizing function, bbox and velocities in the new unit. -/
theorem C100_units {s : K} (hs : 0 < s) (imax : ℕ) (seps : K) (d0 d1 d2 : ℕ) (o : Opts K) (names : List String)
    (bbox : List K) (vp0 : Arr K)
    (hwater : AllNodes d0 d1 d2 fun i j k => 1 / 1000 ≤ convertUnits o.units vp0 i j k ∧
      1 / 1000 ≤ s * convertUnits o.units vp0 i j k)
    (h99 : (o.wl ≠ 0 ∧ o.grad ≠ 0) ∨ (o.hmin ≤ o.hmax ∧ o.hmax ≤ 99999 ∧ s * o.hmax ≤ 99999)) :
    sizing imax seps d0 d1 d2 (o.scale s) names (bbox.map (s * ·)) (fun i j k => s * vp0 i j k) =
      (sizing imax seps d0 d1 d2 o names bbox vp0).map (Option.map (Out.scale s)) := by
  have hc : convertUnits o.units (fun i j k => s * vp0 i j k) =
      fun i j k => s * convertUnits o.units vp0 i j k := by
    unfold convertUnits
    split_ifs <;> first | rfl | (funext i j k; ring)
  have hg : waterGuard d0 d1 d2 (convertUnits o.units vp0) = false := by
    by_contra h
    simp only [Bool.not_eq_false, waterGuard, List.any_eq_true, List.mem_range, Bool.and_eq_true,
      decide_eq_true_eq] at h
    obtain ⟨i, hi, j, hj, k, hk, h1, -⟩ := h
    exact absurd h1 (not_lt.2 (hwater i hi j hj k hk).1)
  have hg' : waterGuard d0 d1 d2 (fun i j k => s * convertUnits o.units vp0 i j k) = false := by
    by_contra h
    simp only [Bool.not_eq_false, waterGuard, List.any_eq_true, List.mem_range, Bool.and_eq_true,
      decide_eq_true_eq] at h
    obtain ⟨i, hi, j, hj, k, hk, h1, -⟩ := h
    exact absurd h1 (not_lt.2 (hwater i hi j hj k hk).2)
  set V := convertUnits o.units vp0 with hVdef
  have r1 : replaceWater d0 d1 d2 o.vpWater V = .ok V := by
    unfold replaceWater; rw [hg]; rfl
  have r2 : replaceWater d0 d1 d2 (o.scale s).vpWater
      (convertUnits (o.scale s).units fun i j k => s * vp0 i j k) = .ok fun i j k => s * V i j k := by
    change replaceWater d0 d1 d2 _ (convertUnits o.units _) = _
    rw [hc]
    unfold replaceWater; rw [hg']; rfl
  unfold sizing
  rw [← hVdef, r1, r2, parseBbox_scale]
  simp only
  cases parseBbox bbox with
  | error e => rfl
  | ok bb =>
  simp only [Except.map]
  cases checkNames names with
  | error e => rfl
  | ok u =>
  simp only
  have hq := request_scale hs d0 d1 d2 o V h99
  cases hr : requested d0 d1 d2 o V with
  | error e =>
    rw [hr] at hq
    cases hr' : requested d0 d1 d2 (o.scale s) (fun i j k => s * V i j k) with
    | error e' => rw [hr'] at hq; simpa [Except.map] using hq
    | ok q => rw [hr'] at hq; simp [Except.map] at hq
  | ok req =>
  rw [hr] at hq
  cases hr' : requested d0 d1 d2 (o.scale s) (fun i j k => s * V i j k) with
  | error e' => rw [hr'] at hq; simp [Except.map] at hq
  | ok req' =>
  rw [hr'] at hq
  simp only [Except.map, Except.ok.injEq] at hq
  have hf : finite d0 d1 d2 (fun i j k => clamp (o.scale s).hmin (o.scale s).hmax (req' i j k)) =
      (finite d0 d1 d2 (fun i j k => clamp o.hmin o.hmax (req i j k))).map fun c i j k => s * c i j k := by
    rw [← finite_scale]
    exact congrArg (finite d0 d1 d2) hq
  have hget : ((finite d0 d1 d2 (fun i j k => clamp o.hmin o.hmax (req i j k))).map
      fun (c : Arr K) i j k => s * c i j k).getD (fun _ _ _ => 0) =
      fun i j k => s * (finite d0 d1 d2 (fun i j k => clamp o.hmin o.hmax (req i j k))).getD (fun _ _ _ => 0) i j k := by
    cases finite d0 d1 d2 (fun i j k => clamp o.hmin o.hmax (req i j k)) with
    | none => funext i j k; simp
    | some c => rfl
  have hdim : (bb.scale s).dim = bb.dim := by cases bb <;> rfl
  have hz : (bb.scale s).zLen / d0 = s * (bb.zLen / d0) := by
    rw [← mul_div_assoc]; congr 1
    cases bb <;> simp only [Bbox.scale, Bbox.zLen] <;> ring
  simp only [hf, hget, hdim, hz]
  set cell := (finite d0 d1 d2 (fun i j k => clamp o.hmin o.hmax (req i j k))).getD (fun _ _ _ => 0)
  have hcr : courant bb.dim (fun i j k => s * V i j k) (fun i j k => s * cell i j k) (o.scale s).crMax (o.scale s).dt
      (o.scale s).spaceOrder = _ := courant_scale hs bb.dim V cell o.crMax o.dt o.spaceOrder
  rw [hcr]
  cases courant bb.dim V cell o.crMax o.dt o.spaceOrder with
  | error e => rfl
  | ok cell1 =>
  simp only [Except.map]
  have hgd : gradation imax seps d0 d1 d2 (fun i j k => s * cell1 i j k) (o.scale s).grade (s * (bb.zLen / d0)) =
      (gradation imax seps d0 d1 d2 cell1 o.grade (bb.zLen / d0)).map fun c i j k => s * c i j k := by
    unfold gradation
    have hl : Limgrad.enforceGradation imax d0 d1 d2 seps (fun i j k => s * cell1 i j k) (o.scale s).grade
        (s * (bb.zLen / d0)) = _ := Limgrad.enforceGradation_scale hs imax d0 d1 d2 seps cell1 o.grade (bb.zLen / d0)
    rw [hl]
    cases Limgrad.enforceGradation imax d0 d1 d2 seps cell1 o.grade (bb.zLen / d0) <;> rfl
  rw [hgd]
  cases gradation imax seps d0 d1 d2 cell1 o.grade (bb.zLen / d0) with
  | error e => rfl
  | ok cell2 =>
  simp only [Except.map]
  have hbp : buildPad d0 d1 d2 (fun i j k => s * cell2 i j k) (fun i j k => s * V i j k) (bb.scale s)
      (o.scale s).domainPad (o.scale s).padStyle = _ := buildPad_scale hs d0 d1 d2 cell2 V bb o.domainPad o.padStyle
  rw [hbp]
  cases buildPad d0 d1 d2 cell2 V bb o.domainPad o.padStyle with
  | error e => rfl
  | ok out =>
  simp only [Except.map]
  cases finite d0 d1 d2 (fun i j k => clamp o.hmin o.hmax (req i j k)) <;> rfl

/-! ### The sizing function at a point -/

omit [FloorSemiring K] in
theorem search_scale {s : K} (hs : 0 < s) (node : ℕ → K) (x : K) : ∀ n,
    Interp.search (fun i => s * node i) (s * x) n = Interp.search node x n
  | 0 => rfl
  | n + 1 => by
    simp only [Interp.search, mul_le_mul_iff_right₀ hs, search_scale hs node x n]

/-- A grid axis times `s`. -/
def axisScale (s : K) (a : Interp.Axis K) : Interp.Axis K := ⟨a.n, fun i => s * a.node i⟩

omit [FloorSemiring K] in
theorem interp_scale {s : K} (hs : 0 < s) : ∀ (as : List (Interp.Axis K)) (A : List ℕ → K) (x : List K),
    Interp.interp (as.map (axisScale s)) (fun js => s * A js) (x.map (s * ·)) = s * Interp.interp as A x
  | [], _, _ => by simp [Interp.interp]
  | _ :: _, _, [] => by simp [Interp.interp]
  | a :: as, A, x :: xs => by
    have e : Interp.cellIdx (axisScale s a) (s * x) = Interp.cellIdx a x := search_scale hs a.node x _
    simp only [List.map_cons, Interp.interp, e]
    rw [interp_scale hs as (fun js => A (Interp.cellIdx a x :: js)) xs,
      interp_scale hs as (fun js => A ((Interp.cellIdx a x + 1) :: js)) xs]
    simp only [axisScale, ← mul_sub, mul_div_mul_left _ _ hs.ne']
    ring

omit [FloorSemiring K] in
/-- **C100 (b).** The sizing function in the new unit, at the same place expressed in the new unit, is the old size
expressed in the new unit. -/
theorem C100_everywhere {s : K} (hs : 0 < s) (out : Out K) (x : List K) :
    Interp.sizeEval (out.scale s) (x.map (s * ·)) = s * Interp.sizeEval out x := by
  have e : Interp.ofArr (fun i j k => s * out.cell i j k) = fun js => s * Interp.ofArr out.cell js := by
    funext js
    unfold Interp.ofArr
    split <;> simp
  have l : ∀ (a b : K) (n : ℕ), Interp.linspace (s * a) (s * b) n = axisScale s (Interp.linspace a b n) := by
    intro a b n
    simp only [Interp.linspace, axisScale, ← mul_sub]
    congr 1; funext i; ring
  have ea : Interp.axes out.d0 out.d1 out.d2 (out.bbox.scale s) =
      (Interp.axes out.d0 out.d1 out.d2 out.bbox).map (axisScale s) := by
    cases out.bbox <;> simp only [Bbox.scale, Interp.axes, l, List.map_cons, List.map_nil]
  simp only [Interp.sizeEval, Out.scale, e, ea]
  exact interp_scale hs _ _ _

/-- **C100 (c).** Velocities in km/s with `units="km-s"` are the same velocities in m/s. -/
theorem C100_km (imax : ℕ) (seps : K) (d0 d1 d2 : ℕ) (o : Opts K) (names : List String)
    (bbox : List K) (vp0 : Arr K) :
    sizing imax seps d0 d1 d2 { o with units := "km-s" } names bbox vp0 =
      sizing imax seps d0 d1 d2 { o with units := "m-s" } names bbox (fun i j k => 1000 * vp0 i j k) := by
  have e1 : convertUnits "km-s" vp0 = fun i j k => 1000 * vp0 i j k := by
    unfold convertUnits
    rw [if_pos rfl]; funext i j k; ring
  have e2 : convertUnits "m-s" (fun i j k => 1000 * vp0 i j k) = fun i j k => 1000 * vp0 i j k := by
    unfold convertUnits
    rw [if_neg (by decide), if_neg (by decide)]
  unfold sizing
  simp only [e1, e2]
  rfl

/-- **C100, the limit of 99999.** A size request of 200000 m (allowed by `hmax`) is cut to 99999 m; the same
request in km, 200 km, is granted. So the condition on `hmax` cannot be dropped. -/
theorem C100_limit :
    okAnd (K := ℚ) (sizing Limgrad.shippedCap (1 / 67108864) 1 1 1
      { Opts.default with hmin := 1000, hmax := 1000000, wl := 1, freq := 1 } [] [0, 1000, 0, 1000]
      (fun _ _ _ => 200000)) (fun out => decide (out.cell 0 0 0 = 99999)) = true ∧
    okAnd (K := ℚ) (sizing Limgrad.shippedCap (1 / 67108864) 1 1 1
      (Opts.scale (1 / 1000) { Opts.default with hmin := 1000, hmax := 1000000, wl := 1, freq := 1 }) []
      [0, 1, 0, 1] (fun _ _ _ => 200)) (fun out => decide (out.cell 0 0 0 = 200)) = true := by
  constructor <;> decide +kernel

/-- The hypotheses are met: the call of C99's example in kilometres. -/
example : sizing Limgrad.shippedCap (1 / 67108864) 3 2 1 (fineOpts.scale (1 / 1000)) []
      ([0, 3, 0, 2].map (1 / 1000 * ·)) (fun i j k => 1 / 1000 * monoV i j k) =
    (sizing Limgrad.shippedCap (1 / 67108864) 3 2 1 fineOpts [] [0, 3, 0, 2] monoV).map
      (Option.map (Out.scale (1 / 1000))) := by
  refine C100_units (by norm_num) _ _ _ _ _ _ _ _ _ ?_ (.inr ⟨?_, ?_, ?_⟩)
  · have e : convertUnits fineOpts.units monoV = monoV := by
      change convertUnits "m-s" monoV = monoV
      unfold convertUnits
      rw [if_neg (by decide), if_neg (by decide)]
    rw [e]
    intro i _ j _ k _
    have : (0 : ℚ) ≤ i := by positivity
    simp only [monoV]
    constructor <;> linarith
  all_goals norm_num [fineOpts]

end SM.Sizing
