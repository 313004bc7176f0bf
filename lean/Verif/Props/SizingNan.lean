import Verif.Model.SizingNan
import Verif.Props.NanInit

/-!
# C148: what one NaN velocity does to the mesh sizes
-/

set_option linter.unusedSectionVars false

namespace SM.SizingNan

open NanFl NanInit

variable {α : Type} {O : Ops α} {inf pinf : α → Prop} {o : Opts α}

theorem minNan_nan {a b : α} (h : O.isNan a ∨ O.isNan b) : O.isNan (minNan O a b) := by
  unfold minNan
  split
  · assumption
  · split
    · assumption
    · rcases h with h | h <;> contradiction

theorem maxNan_nan {a b : α} (h : O.isNan a ∨ O.isNan b) : O.isNan (maxNan O a b) := by
  unfold maxNan
  split
  · assumption
  · split
    · assumption
    · rcases h with h | h <;> contradiction

theorem fold_nan {f : α → α → α} (hf : ∀ a b, O.isNan a ∨ O.isNan b → O.isNan (f a b)) (l : List α) :
    ∀ s, (O.isNan s ∨ ∃ x ∈ l, O.isNan x) → O.isNan (l.foldl f s) := by
  induction l with
  | nil => rintro s (h | ⟨x, hx, -⟩); exacts [h, by simp at hx]
  | cons y l ih =>
    intro s h
    refine ih _ ?_
    rcases h with h | ⟨x, hx, h⟩
    · exact Or.inl (hf _ _ (Or.inl h))
    · rcases List.mem_cons.1 hx with rfl | hx
      · exact Or.inl (hf _ _ (Or.inr h))
      · exact Or.inr ⟨x, hx, h⟩

theorem reduce_nan {f : α → α → α} (hf : ∀ a b, O.isNan a ∨ O.isNan b → O.isNan (f a b)) {cells : List Node} {A : Node → α} {p : Node} (hp : p ∈ cells)
    (h : O.isNan (A p)) : ∃ m, reduce f cells A = .ok m ∧ O.isNan m := by
  unfold reduce
  have hm : A p ∈ cells.map A := List.mem_map_of_mem hp
  cases hc : cells.map A with
  | nil => rw [hc] at hm; simp at hm
  | cons x l =>
    refine ⟨_, rfl, fold_nan hf l x ?_⟩
    rw [hc] at hm
    rcases List.mem_cons.1 hm with e | hm
    · left; rw [← e]; exact h
    · exact Or.inr ⟨_, hm, h⟩

theorem units_nan (hI : IEEE O inf pinf) {vp : Node → α} {p : Node} (h : O.isNan (vp p)) : O.isNan (units O o vp p) := by
  unfold units
  cases o.unit with
  | none => exact h
  | some u => exact hI.nan_mul _ _ (Or.inl h)

theorem water_at {cells : List Node} {vp v : Node → α} (h : water O o cells vp = .ok v) (p : Node) :
    v p = vp p ∨ O.lt (vp p) o.small := by
  unfold water at h
  split at h
  · cases hw : o.vpWater with
    | none => rw [hw] at h; simp at h
    | some w =>
      rw [hw] at h
      simp only [] at h
      split at h
      · simp at h
      · injection h with h
        subst h
        simp only []
        split
        · right; assumption
        · left; rfl
  · injection h with h
    subst h
    exact Or.inl rfl

theorem water_nan (hI : IEEE O inf pinf) {cells : List Node} {vp v : Node → α} (h : water O o cells vp = .ok v) {p : Node} (hp : O.isNan (vp p)) :
    O.isNan (v p) := by
  rcases water_at h p with e | e
  · rw [e]; exact hp
  · rw [hI.nan_lt _ _ (Or.inl hp)] at e; simp at e

theorem clamp_nan (hI : IEEE O inf pinf) {x : α} (h : O.isNan x) : clamp O o x = x := by
  unfold clamp
  simp [hI.nan_lt x o.hmin (Or.inl h), hI.nan_lt o.hmax x (Or.inr h)]

theorem courant_nan (hI : IEEE O inf pinf) {vp cell r : Node → α} (h : courant O o vp cell = .ok r) {p : Node} (hp : O.isNan (cell p)) :
    O.isNan (r p) := by
  unfold courant at h
  split at h
  · injection h with h; subst h; exact hp
  · split at h
    · simp at h
    · split at h
      · simp at h
      · split at h
        · simp at h
        · injection h with h
          subst h
          simp only []
          rw [hI.nan_lt _ _ (Or.inr (hI.nan_div _ _ (Or.inr (hI.nan_mul _ _ (Or.inr hp)))))]
          exact hp

/-- The shape of a successful call. -/
theorem sizes_ok {filt : (Node → α) → Node → α} {cells : List Node} {vp r : Node → α} (h : sizes O o filt cells vp = .ok r) :
    ∃ v q, water O o cells (units O o vp) = .ok v ∧ requested O o filt cells v = .ok q ∧ courant O o v (fun p => clamp O o (q p)) = .ok r := by
  unfold sizes at h
  cases hv : water O o cells (units O o vp) with
  | error e => rw [hv] at h; simp [bind, Except.bind] at h
  | ok v =>
    rw [hv] at h
    simp only [bind, Except.bind] at h
    cases hq : requested O o filt cells v with
    | error e => rw [hq] at h; simp at h
    | ok q => rw [hq] at h; exact ⟨v, q, rfl, hq, h⟩

theorem requested_on {filt : (Node → α) → Node → α} {cells : List Node} {v q : Node → α} (hon : O.lt O.zero o.wl ∨ O.lt O.zero o.grad)
    (h : requested O o filt cells v = .ok q) : ∃ a b, wavelength O o v = .ok a ∧ gradient O o filt cells v = .ok b ∧ q = fun p => minNan O (a p) (b p) := by
  unfold requested at h
  rw [if_pos (by simpa using hon)] at h
  cases ha : wavelength O o v with
  | error e => rw [ha] at h; simp [bind, Except.bind] at h
  | ok a =>
    rw [ha] at h
    simp only [bind, Except.bind] at h
    cases hb : gradient O o filt cells v with
    | error e => rw [hb] at h; simp at h
    | ok b =>
      rw [hb] at h
      simp only [pure, Except.pure] at h
      injection h with h
      exact ⟨a, b, rfl, rfl, h.symm⟩

/-- **C148 (its own cell).** With the wavelength criterion, a NaN velocity makes the size of its cell NaN, whatever the bounds and the time step. -/
theorem C148_own (hI : IEEE O inf pinf) {filt : (Node → α) → Node → α} {cells : List Node} {vp r : Node → α} (hw : O.lt O.zero o.wl) (hw0 : O.isZero o.wl = false)
    (h : sizes O o filt cells vp = .ok r) {p : Node} (hp : O.isNan (vp p)) : O.isNan (r p) := by
  obtain ⟨v, q, h1, h2, h3⟩ := sizes_ok h
  have hv := water_nan hI h1 (units_nan (o := o) hI hp)
  obtain ⟨a, b, ha, hb, rfl⟩ := requested_on (Or.inl hw) h2
  refine courant_nan hI h3 ?_
  have han : O.isNan (a p) := by
    unfold wavelength at ha
    rw [if_neg (by simp [hw0])] at ha
    split at ha
    · simp at ha
    · split at ha
      · simp at ha
      · injection ha with ha
        subst ha
        exact hI.nan_div _ _ (Or.inl hv)
  have := minNan_nan (O := O) (b := b p) (Or.inl han)
  rw [clamp_nan hI this]
  exact this

/-- **C148 (everything).** With the gradient criterion, one NaN velocity anywhere in the grid makes the size of every node NaN. -/
theorem C148_everything (hI : IEEE O inf pinf) {filt : (Node → α) → Node → α} (hf : ∀ A p, O.isNan (A p) → O.isNan (filt A p)) {cells : List Node} {vp r : Node → α}
    (hg : O.lt O.zero o.grad) (hg0 : O.isZero o.grad = false) (h : sizes O o filt cells vp = .ok r) {p : Node} (hpc : p ∈ cells) (hp : O.isNan (vp p)) :
    ∀ q, O.isNan (r q) := by
  obtain ⟨v, q, h1, h2, h3⟩ := sizes_ok h
  have hv := water_nan hI h1 (units_nan (o := o) hI hp)
  obtain ⟨a, b, ha, hb, rfl⟩ := requested_on (Or.inr hg) h2
  have hbn : ∀ c, O.isNan (b c) := by
    unfold gradient at hb
    rw [hg0] at hb
    simp only [Bool.false_eq_true, if_false] at hb
    split at hb
    · simp [throw, throwThe, MonadExceptOf.throw, bind, Except.bind] at hb
    · obtain ⟨mx, hmx, hmn⟩ := reduce_nan (O := O) (fun a b => maxNan_nan) (A := fun p => O.sub (filt (fun p => O.mul (v p) (v p)) p) (O.mul (filt v p) (filt v p))) hpc
        (hI.nan_sub _ _ (Or.inr (hI.nan_mul _ _ (Or.inl (hf v p hv)))))
      simp only [hmx, bind, Except.bind, pure, Except.pure] at hb
      split at hb
      · simp at hb
      · injection hb with hb
        subst hb
        intro c
        exact hI.nan_div _ _ (Or.inr (hI.nan_add _ _ (Or.inl (hI.nan_sub _ _ (Or.inl (hI.nan_div _ _ (Or.inr hmn)))))))
  intro c
  refine courant_nan hI h3 ?_
  have := minNan_nan (O := O) (a := a c) (Or.inr (hbn c))
  rw [clamp_nan hI this]
  exact this

theorem courant_at {v v' c c' r r' : Node → α} {q : Node} (hv : v q = v' q) (hc : c q = c' q) (h : courant O o v c = .ok r) (h' : courant O o v' c' = .ok r') :
    r q = r' q := by
  unfold courant at h h'
  split at h
  · rw [if_pos ‹_›] at h'
    injection h with h; injection h' with h'; subst h; subst h'; exact hc
  · rw [if_neg ‹_›] at h'
    split at h
    · simp at h
    · rw [if_neg ‹_›] at h'
      split at h
      · simp at h
      · rw [if_neg ‹_›] at h'
        split at h
        · simp at h
        · rw [if_neg ‹_›] at h'
          injection h with h; injection h' with h'; subst h; subst h'
          simp only [hv, hc]

theorem units_at {vp vp' : Node → α} {q : Node} (h : vp q = vp' q) : units O o vp q = units O o vp' q := by
  unfold units; rw [h]

/-- **C148 (the others, partial).** Without the gradient criterion, replacing one velocity that is not a water velocity by NaN changes the size of no other node.
Missing: with the gradient criterion, where it is false (`C148_everything`). -/
theorem C148_others_partial (hI : IEEE O inf pinf) {filt : (Node → α) → Node → α} {cells : List Node} {vp vp' r r' : Node → α} {p : Node} (hg0 : O.isZero o.grad = true)
    (hs : O.lt (units O o vp p) o.small = false) (hp : O.isNan (vp' p)) (hvp : ∀ q, q ≠ p → vp' q = vp q)
    (h : sizes O o filt cells vp = .ok r) (h' : sizes O o filt cells vp' = .ok r') : ∀ q, q ≠ p → r' q = r q := by
  intro q hq
  obtain ⟨v, s, h1, h2, h3⟩ := sizes_ok h
  obtain ⟨v', s', h1', h2', h3'⟩ := sizes_ok h'
  have hu : ∀ q, q ≠ p → units O o vp' q = units O o vp q := fun q hq => units_at (hvp q hq)
  have hsmall : ∀ q, O.lt (units O o vp' q) o.small = O.lt (units O o vp q) o.small := by
    intro q
    by_cases e : q = p
    · subst e; rw [hs, hI.nan_lt _ _ (Or.inl (units_nan hI hp))]
    · rw [hu q e]
  have hv : v' q = v q := by
    unfold water at h1 h1'
    simp only [hsmall] at h1'
    split at h1
    · rw [if_pos ‹_›] at h1'
      cases hw : o.vpWater with
      | none => rw [hw] at h1; simp at h1
      | some w =>
        rw [hw] at h1 h1'
        simp only [] at h1 h1'
        split at h1
        · simp at h1
        · rw [if_neg ‹_›] at h1'
          injection h1 with h1; injection h1' with h1'; subst h1; subst h1'
          simp only [hu q hq]
    · rw [if_neg ‹_›] at h1'
      injection h1 with h1; injection h1' with h1'; subst h1; subst h1'
      exact hu q hq
  refine courant_at hv ?_ h3' h3
  have hgr : ∀ w, gradient O o filt cells w = .ok fun _ => o.big := by
    intro w; unfold gradient; rw [hg0]; rfl
  suffices s' q = s q by simp only [this]
  by_cases hon : O.lt O.zero o.wl ∨ O.lt O.zero o.grad
  · obtain ⟨a, b, ha, hb, rfl⟩ := requested_on hon h2
    obtain ⟨a', b', ha', hb', rfl⟩ := requested_on hon h2'
    rw [hgr] at hb hb'
    injection hb with hb; injection hb' with hb'; subst hb; subst hb'
    suffices a' q = a q by simp only [this]
    unfold wavelength at ha ha'
    split at ha
    · rw [if_pos ‹_›] at ha'
      injection ha with ha; injection ha' with ha'; subst ha; subst ha'; rfl
    · rw [if_neg ‹_›] at ha'
      split at ha
      · simp at ha
      · rw [if_neg ‹_›] at ha'
        split at ha
        · simp at ha
        · rw [if_neg ‹_›] at ha'
          injection ha with ha; injection ha' with ha'; subst ha; subst ha'
          simp only [hv]
  · unfold requested at h2 h2'
    rw [if_neg (by simpa using hon)] at h2 h2'
    simp only [pure, Except.pure] at h2 h2'
    injection h2 with h2; injection h2' with h2'; subst h2; subst h2'; rfl

/-- **C148 (ignored).** Without a criterion and a time step, the velocities, NaN or not, do not enter the sizes. -/
theorem C148_ignored {filt filt' : (Node → α) → Node → α} {cells : List Node} {vp vp' r r' : Node → α} (hw : O.lt O.zero o.wl = false) (hg : O.lt O.zero o.grad = false)
    (ht : O.isZero o.dt = true) (h : sizes O o filt cells vp = .ok r) (h' : sizes O o filt' cells vp' = .ok r') : r = r' := by
  obtain ⟨v, s, -, h2, h3⟩ := sizes_ok h
  obtain ⟨v', s', -, h2', h3'⟩ := sizes_ok h'
  unfold requested at h2 h2'
  rw [if_neg (by simp [hw, hg])] at h2 h2'
  simp only [pure, Except.pure] at h2 h2'
  injection h2 with h2; injection h2' with h2'; subst h2; subst h2'
  unfold courant at h3 h3'
  rw [if_pos (by simp [ht])] at h3 h3'
  injection h3 with h3; injection h3' with h3'
  rw [← h3, ← h3']

/-! ### double precision -/

/-- `wl = 5`, `freq = 2`, `grad` as given, the other options at their defaults. -/
def exampleOpts (grad : ℚ) : Opts Double :=
  { hmin := .num 150, hmax := .num 10000, wl := .num 5, freq := .num 2, grad := .num grad, crMax := .num 1, dt := .num 0, spaceOrder := .num 1, vpWater := some (.num 1500),
    unit := none, dim := .num 2, big := .num 99999, small := .num (1 / 1024), tenth := .num (1 / 8), one := .num 1, c1300 := .num 1300, c1800 := .num 1800 }

/-- Velocities 3000 and NaN. -/
def exampleVp : Node → Double := fun p => if p = (0, 1, 0) then .nan else .num 3000

/-- **C148 (witness).** Two nodes with velocities 3000 and NaN, double precision, a filter that returns its argument: without the gradient criterion the sizes are 300 and NaN, with it both are NaN. -/
theorem C148_witness :
    (sizes (Double.ops id) (exampleOpts 0) id [(0, 0, 0), (0, 1, 0)] exampleVp).toOption.map (fun r => (r (0, 0, 0), r (0, 1, 0))) = some (.num 300, .nan) ∧
    (sizes (Double.ops id) (exampleOpts 100) id [(0, 0, 0), (0, 1, 0)] exampleVp).toOption.map (fun r => (r (0, 0, 0), r (0, 1, 0))) = some (.nan, .nan) :=
  ⟨by decide +kernel, by decide +kernel⟩

/-- The hypotheses of the theorems are met in double precision. -/
example : (Double.ops id).lt (Double.ops id).zero (exampleOpts 100).wl = true ∧ (Double.ops id).isZero (exampleOpts 100).wl = false ∧
    (Double.ops id).lt (Double.ops id).zero (exampleOpts 100).grad = true ∧ (Double.ops id).isZero (exampleOpts 100).grad = false ∧
    (Double.ops id).isZero (exampleOpts 0).grad = true ∧ (Double.ops id).isNan (exampleVp (0, 1, 0)) = true ∧
    (Double.ops id).lt (units (Double.ops id) (exampleOpts 0) (fun _ => .num 3000) (0, 1, 0)) (exampleOpts 0).small = false := by
  refine ⟨?_, ?_, ?_, ?_, ?_, ?_, ?_⟩ <;> decide +kernel

end SM.SizingNan
