import Verif.Props.Returned

/-!
# C97: the unit of length and the origin do not matter

`generate_mesh` is run twice, with all lengths multiplied by `s > 0` and all points moved by `v` the second time.
-/

namespace SM.Units

open Np Topology FixMesh MeshLoop

/-! ### Lists of points under a map -/

section lists
variable {P Q : Type}

theorem item_map (φ : P → Q) (p : List P) (i : ℕ) : item (p.map φ) i = (item p i).map φ := by
  unfold item
  rw [List.getElem?_map]
  cases p[i]? <;> rfl

theorem mapM_map_except {α β γ : Type} (f : β → γ) (g : α → Except String β) (l : List α) :
    (l.mapM fun a => (g a).map f) = (l.mapM g).map (List.map f) := by
  induction l with
  | nil => rfl
  | cons a l ih =>
    simp only [List.mapM_cons, ih, bind, Except.bind, pure, Except.pure]
    cases g a with
    | error e => rfl
    | ok b => cases l.mapM g <;> rfl

theorem mapM_congr {α β : Type} {f g : α → Except String β} : ∀ {l : List α}, (∀ a ∈ l, f a = g a) → l.mapM f = l.mapM g
  | [], _ => rfl
  | a :: l, h => by
    rw [List.mapM_cons, List.mapM_cons, h a (by simp), mapM_congr fun b hb => h b (by simp [hb])]

theorem take_map (φ : P → Q) (p : List P) (ix : List ℕ) : Np.take (p.map φ) ix = (Np.take p ix).map (List.map φ) := by
  unfold Np.take
  rw [← mapM_map_except]
  congr 1
  funext i
  exact item_map φ p i

variable {κ ρ : Type} [LinearOrder κ] [LinearOrder ρ]

theorem orient_map {φ : P → Q} {vol : List P → ℝ} {vol' : List Q → ℝ} (hv : ∀ vs, vol' (vs.map φ) < 0 ↔ vol vs < 0) (p : List P) :
    orient vol' (p.map φ) = orient vol p := by
  funext r
  unfold orient
  rw [take_map]
  cases Np.take p r with
  | error e => rfl
  | ok vs => simp only [Except.map, bind, Except.bind, hv]

/-- `fix_mesh` of the transformed points, if keys and orientations agree. -/
theorem fixMesh_map {φ : P → Q} {key : P → κ} {key' : Q → κ} (rk : List ℕ → ρ) {vol : List P → ℝ} {vol' : List Q → ℝ}
    (hk : ∀ q, key' (φ q) = key q) (hv : ∀ vs, vol' (vs.map φ) < 0 ↔ vol vs < 0) (p : List P) (t : List (List ℕ)) (del ori : Bool) :
    fixMesh key' rk vol' (p.map φ) t del ori = (fixMesh key rk vol p t del ori).map fun x => (x.1.map φ, x.2.1, x.2.2) := by
  have hks : (p.map φ).map key' = p.map key := by
    rw [List.map_map]; exact List.map_congr_left fun q _ => hk q
  unfold fixMesh
  rw [hks]
  cases p with
  | nil => rfl
  | cons p0 ps =>
    simp only [List.isEmpty_cons, List.isEmpty_map, Bool.false_eq_true, if_false, take_map, bind, Except.bind, pure, Except.pure]
    cases h1 : Np.take (p0 :: ps) (uniqIndex ((p0 :: ps).map key)) with
    | error e => rfl
    | ok p1 =>
      simp only [Except.map]
      cases h2 : t.mapM (Np.take (uniqInverse ((p0 :: ps).map key))) with
      | error e => rfl
      | ok t1 =>
        simp only []
        cases del
        · simp only [Bool.false_eq_true, if_false]
          cases ori
          · rfl
          · simp only [if_true, orient_map hv]
            split <;> simp_all
        · simp only [if_true, take_map]
          cases h3 : Np.take p1 (uniqBy id (uniqBy rk (t1.map sortRow)).flatten) with
          | error e => rfl
          | ok p2 =>
            simp only [Except.map]
            cases ori
            · rfl
            · simp only [if_true, orient_map hv]
              split <;> simp_all

theorem quals_map {φ : P → Q} {qual : List P → ℝ} {qual' : List Q → ℝ} (hq : ∀ vs, qual' (vs.map φ) = qual vs) (p : List P) (r : List ℕ) :
    (do return qual' (← Np.take (p.map φ) r) : Except String ℝ) = do return qual (← Np.take p r) := by
  rw [take_map]
  cases Np.take p r with
  | error e => rfl
  | ok vs => simp only [Except.map, bind, Except.bind, pure, Except.pure, hq]

theorem deleteBoundaryEntities_map {φ : P → Q} {key : P → κ} {key' : Q → κ} (rk : List ℕ → ρ) {vol qual : List P → ℝ} {vol' qual' : List Q → ℝ}
    (srt : List (ℕ × ℕ) → List (ℕ × ℕ)) (hk : ∀ q, key' (φ q) = key q) (hv : ∀ vs, vol' (vs.map φ) < 0 ↔ vol vs < 0)
    (hq : ∀ vs, qual' (vs.map φ) = qual vs) (p : List P) (t : List (List ℕ)) (dim : ℕ) (mq : ℝ) :
    deleteBoundaryEntities key' rk vol' qual' srt (p.map φ) t dim mq =
      (deleteBoundaryEntities key rk vol qual srt p t dim mq).map fun x => (x.1.map φ, x.2) := by
  unfold deleteBoundaryEntities
  simp only [quals_map hq, fixMesh_map rk hk hv]
  simp only [bind, Except.bind, pure, Except.pure]
  split
  · rfl
  split
  · rfl
  split
  · rfl
  cases fixMesh key rk vol p _ true true <;> rfl

end lists

/-! ### The clean-up -/

noncomputable section
variable {d : ℕ} {κ ρ : Type} [LinearOrder κ] [LinearOrder ρ]

/-- Multiply all lengths by `s`, then move by `v`. -/
def chg (s : ℝ) (v : Fin d → ℝ) (x : Fin d → ℝ) : Fin d → ℝ := fun k => s * x k + v k

/-- The transformed mesh: other coordinates, same cells. -/
def onMesh (φ : (Fin d → ℝ) → Fin d → ℝ) (x : List (Fin d → ℝ) × List (List ℕ)) : List (Fin d → ℝ) × List (List ℕ) := (x.1.map φ, x.2)

/-- The tools of the second run do on transformed points what those of the first run do on the points. -/
structure ToolsAlong (φ : (Fin d → ℝ) → Fin d → ℝ) (T T' : Tools d κ ρ) : Prop where
  key : ∀ p q, keyOf T'.enc T'.ptol (p.map φ) (φ q) = keyOf T.enc T.ptol p q
  rk : T'.rk = T.rk
  vol : ∀ vs, T'.vol (vs.map φ) < 0 ↔ T.vol vs < 0
  qual : ∀ vs, T'.qual (vs.map φ) = T.qual vs
  srt : T'.srt = T.srt
  lap : ∀ p t, laplacianFixed T' (p.map φ) t = (laplacianFixed T p t).map (onMesh φ)
  lint : ∀ p t, T'.lint (p.map φ) t = (T.lint p t).map (onMesh φ)

theorem fixed_map {φ : (Fin d → ℝ) → Fin d → ℝ} {T T' : Tools d κ ρ} (h : ToolsAlong φ T T') (p : List (Fin d → ℝ)) (t : List (List ℕ)) :
    fixed T' (p.map φ) t = (fixed T p t).map (onMesh φ) := by
  cases p with
  | nil => rfl
  | cons p0 ps =>
    have h1 : fixMeshK T'.enc T'.rk T'.vol T'.ptol ((p0 :: ps).map φ) t true true =
        fixMesh (keyOf T'.enc T'.ptol ((p0 :: ps).map φ)) T'.rk T'.vol ((p0 :: ps).map φ) t true true := rfl
    have h2 : fixMeshK T.enc T.rk T.vol T.ptol (p0 :: ps) t true true =
        fixMesh (keyOf T.enc T.ptol (p0 :: ps)) T.rk T.vol (p0 :: ps) t true true := rfl
    unfold fixed
    rw [h1, h2, h.rk, fixMesh_map T.rk (h.key (p0 :: ps)) h.vol]
    cases fixMesh (keyOf T.enc T.ptol (p0 :: ps)) T.rk T.vol (p0 :: ps) t true true <;> rfl

theorem cleanup2_map {φ : (Fin d → ℝ) → Fin d → ℝ} {T T' : Tools d κ ρ} (h : ToolsAlong φ T T') (o : TermOpts) (p : List (Fin d → ℝ)) (t : List (List ℕ)) :
    cleanup2 T' o (p.map φ) t = (cleanup2 T o p t).map (onMesh φ) := by
  unfold cleanup2
  rw [fixed_map h]
  simp only [bind, Except.bind, pure, Except.pure]
  cases fixed T p t with
  | error e => rfl
  | ok x =>
    obtain ⟨p1, t1⟩ := x
    simp only [Except.map, onMesh]
    rw [h.rk, h.srt, deleteBoundaryEntities_map T.rk T.srt (h.key p1) h.vol h.qual]
    cases deleteBoundaryEntities (keyOf T.enc T.ptol p1) T.rk T.vol T.qual T.srt p1 t1 2 0.15 with
    | error e => rfl
    | ok y =>
      obtain ⟨p2, t2⟩ := y
      simp only [Except.map]
      split
      · rw [h.lap]; cases laplacianFixed T p2 t2 <;> rfl
      · rfl

theorem termination_map {φ : (Fin d → ℝ) → Fin d → ℝ} {T T' : Tools d κ ρ} (h : ToolsAlong φ T T') (rank : ℕ) (sliver : Bool) (o : TermOpts)
    (p : List (Fin d → ℝ)) (t : List (List ℕ)) :
    termination T' rank 1 sliver o (p.map φ) t = (termination T rank 1 sliver o p t).map (onMesh φ) := by
  unfold termination
  simp only [bind, Except.bind, pure, Except.pure, gt_iff_lt, lt_irrefl, decide_false, Bool.false_and, Bool.false_eq_true, if_false]
  have : (if rank = 0 ∧ d = 2 then cleanup2 T' o (p.map φ) t else .ok (p.map φ, t)) =
      (if rank = 0 ∧ d = 2 then cleanup2 T o p t else .ok (p, t)).map (onMesh φ) := by
    split
    · exact cleanup2_map h o p t
    · rfl
  rw [this]
  cases (if rank = 0 ∧ d = 2 then cleanup2 T o p t else .ok (p, t)) with
  | error e => rfl
  | ok x =>
    obtain ⟨p1, t1⟩ := x
    simp only [Except.map, onMesh]
    split
    · rw [h.lint]; cases T.lint p1 t1 <;> rfl
    split
    · rw [fixed_map h]; cases fixed T p1 t1 <;> rfl
    · rfl

/-! ### Projections -/

variable {s : ℝ} {v : Fin d → ℝ}

open Project

/-- The guard `np.where(dgrad2 < deps, deps, dgrad2)` of the Newton steps compares a pure number with a length. It is idle at `x`, in both
units, if the squared gradient is zero (then nothing moves) or large enough. It does no harm if the unit is the same. -/
def Calm (s : ℝ) (f : (Fin d → ℝ) → ℝ) (deps : ℝ) (x : Fin d → ℝ) : Prop :=
  s = 1 ∨ ∑ i, dgrad f deps x i ^ 2 = 0 ∨ deps ≤ ∑ i, dgrad f deps x i ^ 2 ∧ s * deps ≤ ∑ i, dgrad f deps x i ^ 2

theorem bump_map (deps : ℝ) (x : Fin d → ℝ) (i : Fin d) : bump (s * deps) (chg s v x) i = chg s v (bump deps x i) := by
  funext k
  simp only [bump, chg]
  split <;> ring

theorem dgrad_map (hs : 0 < s) {f f' : (Fin d → ℝ) → ℝ} (hf : ∀ x, f' (chg s v x) = s * f x) (deps : ℝ) (x : Fin d → ℝ) (i : Fin d) :
    dgrad f' (s * deps) (chg s v x) i = dgrad f deps x i := by
  unfold dgrad
  rw [bump_map, hf, hf, ← mul_sub, mul_div_mul_left _ _ hs.ne']

theorem newton_map (hs : 0 < s) {f f' : (Fin d → ℝ) → ℝ} (hf : ∀ x, f' (chg s v x) = s * f x) {deps : ℝ} {x : Fin d → ℝ} (hc : Calm s f deps x)
    (alpha : ℝ) : newton f' (s * deps) alpha (chg s v x) = chg s v (newton f deps alpha x) := by
  funext i
  have h2 : dgrad f deps x i / dgrad2 f' (s * deps) (chg s v x) = dgrad f deps x i / dgrad2 f deps x := by
    unfold dgrad2
    simp only [dgrad_map hs hf]
    rcases hc with rfl | h0 | ⟨h1, h2⟩
    · rw [one_mul]
    · have : dgrad f deps x i = 0 := by
        have := (Finset.sum_eq_zero_iff_of_nonneg fun i _ => sq_nonneg (dgrad f deps x i)).1 h0 i (Finset.mem_univ i)
        simpa using this
      rw [this, zero_div, zero_div]
    · rw [if_neg (not_lt.2 h1), if_neg (not_lt.2 h2)]
  unfold newton
  rw [dgrad_map hs hf, hf, mul_div_assoc, h2]
  simp only [chg]
  ring

/-- No projection of the points `p` onto the level set of `f` meets the guard. -/
def CalmProject (s : ℝ) (f : (Fin d → ℝ) → ℝ) (deps hmin : ℝ) (idx : ℕ) (p : List (Fin d → ℝ)) : Prop :=
  ∀ x ∈ p, selected hmin idx (f x) → Calm s f deps x

theorem selected_map (hs : 0 < s) (hmin : ℝ) (idx : ℕ) (y : ℝ) : selected (s * hmin) idx (s * y) ↔ selected hmin idx y := by
  unfold selected
  split
  · exact mul_pos_iff_of_pos_left hs
  · rw [mul_div_assoc]
    exact and_congr (mul_pos_iff_of_pos_left hs) (mul_lt_mul_iff_right₀ hs)

theorem projectBack_map (hs : 0 < s) {f f' : (Fin d → ℝ) → ℝ} (hf : ∀ x, f' (chg s v x) = s * f x) {deps hmin : ℝ} {idx : ℕ} {p : List (Fin d → ℝ)}
    (hc : CalmProject s f deps hmin idx p) :
    projectBack f' (s * deps) (s * hmin) idx (p.map (chg s v)) = (projectBack f deps hmin idx p).map (chg s v) := by
  unfold projectBack
  rw [List.map_map, List.map_map]
  apply List.map_congr_left
  intro x hx
  have he : selected (s * hmin) idx (f' (chg s v x)) ↔ selected hmin idx (f x) := by rw [hf, selected_map hs]
  simp only [Function.comp]
  by_cases h : selected hmin idx (f x)
  · rw [if_pos h, if_pos (he.2 h)]
    exact newton_map hs hf (hc x hx h) 1
  · rw [if_neg h, if_neg (mt he.1 h)]

/-- No projection onto the domain and the subdomains meets the guard. -/
def CalmAll (s deps h0 : ℝ) : ℕ → List ((Fin d → ℝ) → ℝ) → List (Fin d → ℝ) → Prop
  | _, [], _ => True
  | idx, l :: ls, p => CalmProject s l deps h0 idx p ∧ CalmAll s deps h0 (idx + 1) ls (projectBack l deps h0 idx p)

theorem projectAll_map (hs : 0 < s) {deps h0 : ℝ} : ∀ {ls ls' : List ((Fin d → ℝ) → ℝ)} (_ : List.Forall₂ (fun f f' => ∀ x, f' (chg s v x) = s * f x) ls ls')
    (idx : ℕ) {p : List (Fin d → ℝ)} (_ : CalmAll s deps h0 idx ls p),
    projectAll (s * deps) (s * h0) idx ls' (p.map (chg s v)) = (projectAll deps h0 idx ls p).map (chg s v)
  | _, _, .nil, _, _, _ => rfl
  | _, _, .cons hf ht, idx, _, hc => by
    unfold projectAll
    rw [projectBack_map hs hf hc.1]
    exact projectAll_map hs ht (idx + 1) hc.2

/-- No step of the final improvement meets the guard. -/
def CalmImprove (s : ℝ) (f : (Fin d → ℝ) → ℝ) (deps : ℝ) (bid : List ℕ) : ℕ → ℕ → ℝ → List (Fin d → ℝ) → Prop
  | 0, _, _, _ => True
  | n + 1, it, alpha, p => (∀ i ∈ bid, ∀ x, p[i]? = some x → Calm s f deps x) ∧
    ∀ q, improveStep f deps alpha bid p = .ok q → CalmImprove s f deps bid n (it + 1) (alpha / ((it : ℝ) + 1)) q

theorem improveStep_map (hs : 0 < s) {f f' : (Fin d → ℝ) → ℝ} (hf : ∀ x, f' (chg s v x) = s * f x) {deps : ℝ} {bid : List ℕ} {p : List (Fin d → ℝ)}
    (hc : ∀ i ∈ bid, ∀ x, p[i]? = some x → Calm s f deps x) (alpha : ℝ) :
    improveStep f' (s * deps) alpha bid (p.map (chg s v)) = (improveStep f deps alpha bid p).map (List.map (chg s v)) := by
  unfold improveStep
  rw [take_map]
  cases Np.take p bid with
  | error e => rfl
  | ok vs =>
    simp only [Except.map, bind, Except.bind, pure, Except.pure, Except.ok.injEq]
    rw [List.zipIdx_map, List.map_map, List.map_map]
    apply List.map_congr_left
    rintro ⟨x, i⟩ hx
    have hxi : p[i]? = some x := by simpa using List.mem_zipIdx_iff_getElem?.1 hx
    simp only [Function.comp, Prod.map_apply, id]
    split
    · rename_i h
      exact newton_map hs hf (hc i h x hxi) alpha
    · rfl

theorem improveLoop_map (hs : 0 < s) {f f' : (Fin d → ℝ) → ℝ} (hf : ∀ x, f' (chg s v x) = s * f x) {deps : ℝ} {bid : List ℕ} :
    ∀ (n it : ℕ) (alpha : ℝ) {p : List (Fin d → ℝ)} (_ : CalmImprove s f deps bid n it alpha p),
    improveLoop f' (s * deps) bid n it alpha (p.map (chg s v)) = (improveLoop f deps bid n it alpha p).map (List.map (chg s v))
  | 0, _, _, _, _ => rfl
  | n + 1, it, alpha, p, hc => by
    unfold improveLoop
    rw [improveStep_map hs hf hc.1]
    cases hq : improveStep f deps alpha bid p with
    | error e => rfl
    | ok q =>
      simp only [Except.map, bind, Except.bind]
      exact improveLoop_map hs hf n (it + 1) _ (hc.2 q hq)

theorem centroid_map {vs : List (Fin d → ℝ)} (h : vs.length = d + 1) : centroid (vs.map (chg s v)) = chg s v (centroid vs) := by
  funext k
  unfold centroid chg
  have : ∀ l : List (Fin d → ℝ), ((l.map (chg s v)).map fun x => x k).sum = s * (l.map fun x => x k).sum + l.length * v k := by
    intro l
    induction l with
    | nil => simp
    | cons a l ih =>
      simp only [List.map_cons, List.sum_cons, List.length_cons, ih, chg]
      push_cast
      ring
  have hd : ((d : ℝ) + 1) ≠ 0 := by positivity
  rw [show (fun x : Fin d → ℝ => fun k => s * x k + v k) = chg s v from rfl, this, h]
  push_cast
  field_simp

theorem take_length {P : Type} {p : List P} {r : List ℕ} {vs : List P} (h : Np.take p r = .ok vs) : vs.length = r.length :=
  (mapM_forall₂.1 h).length_eq.symm

theorem removeOutside_map (hs : 0 < s) {f f' : (Fin d → ℝ) → ℝ} (hf : ∀ x, f' (chg s v x) = s * f x) (geps : ℝ) (p : List (Fin d → ℝ))
    {t : List (List ℕ)} (ht : ∀ r ∈ t, r.length = d + 1) :
    removeOutside f' (s * geps) (p.map (chg s v)) t = removeOutside f geps p t := by
  unfold removeOutside
  have : t.mapM (keeps f' (s * geps) (p.map (chg s v))) = t.mapM (keeps f geps p) := by
    apply mapM_congr
    intro r hr
    unfold keeps
    rw [take_map]
    cases h : Np.take p r with
    | error e => rfl
    | ok vs =>
      simp only [Except.map, bind, Except.bind, pure, Except.pure]
      rw [centroid_map (by rw [take_length h, ht r hr]), hf, ← mul_neg]
      simp only [mul_lt_mul_iff_right₀ hs]
  rw [this]

/-! ### Forces -/

open Forces

/-- A bar with transformed ends. -/
def onBar (φ : (Fin d → ℝ) → Fin d → ℝ) (x : Bar d) : Bar d := (x.1, φ x.2.1, φ x.2.2)

theorem barOf_map (φ : (Fin d → ℝ) → Fin d → ℝ) (p : List (Fin d → ℝ)) (e : ℕ × ℕ) : barOf (p.map φ) e = (barOf p e).map (onBar φ) := by
  unfold barOf
  rw [item_map, item_map]
  cases item p e.1 with
  | error e => rfl
  | ok a => cases item p e.2 <;> rfl

theorem barVec_map (x : Bar d) (k : Fin d) : barVec (onBar (chg s v) x) k = s * barVec x k := by
  simp only [barVec, onBar, chg]; ring

theorem barLen_map (hs : 0 < s) (eps : ℝ) {x : Bar d} (hx : x.2.1 ≠ x.2.2) : barLen eps (onBar (chg s v) x) = s * barLen eps x := by
  have h0 : Real.sqrt (∑ k, barVec x k ^ 2) ≠ 0 := by
    rw [Real.sqrt_ne_zero (Finset.sum_nonneg fun k _ => sq_nonneg _)]
    intro h
    apply hx
    funext k
    have := (Finset.sum_eq_zero_iff_of_nonneg fun k _ => sq_nonneg (barVec x k)).1 h k (Finset.mem_univ k)
    have : barVec x k = 0 := by simpa using this
    simp only [barVec] at this
    linarith
  have h1 : Real.sqrt (∑ k, barVec (onBar (chg s v) x) k ^ 2) = s * Real.sqrt (∑ k, barVec x k ^ 2) := by
    simp only [barVec_map, mul_pow]
    rw [← Finset.mul_sum, Real.sqrt_mul (sq_nonneg s), Real.sqrt_sq hs.le]
  unfold barLen
  simp only [h1]
  rw [if_neg h0, if_neg (mul_ne_zero hs.ne' h0)]

theorem hEdge_map {fh fh' : (Fin d → ℝ) → ℝ} (hf : ∀ x, fh' (chg s v x) = s * fh x) (x : Bar d) : hEdge fh' (onBar (chg s v) x) = s * hEdge fh x := by
  unfold hEdge
  rw [← hf]
  congr 1
  funext k
  simp only [onBar, chg]; ring

theorem sum_pow_map (bars : List (Bar d)) {g g' : Bar d → ℝ} (h : ∀ x ∈ bars, g' (onBar (chg s v) x) = s * g x) :
    ((bars.map (onBar (chg s v))).map fun x => g' x ^ d).sum = s ^ d * (bars.map fun x => g x ^ d).sum := by
  induction bars with
  | nil => simp
  | cons a l ih =>
    simp only [List.map_cons, List.sum_cons]
    rw [ih fun x hx => h x (by simp [hx]), h a (by simp)]
    ring

theorem scale_map (hs : 0 < s) (eps : ℝ) {fh fh' : (Fin d → ℝ) → ℝ} (hf : ∀ x, fh' (chg s v x) = s * fh x) {bars : List (Bar d)}
    (hb : ∀ x ∈ bars, x.2.1 ≠ x.2.2) : scale eps fh' (bars.map (onBar (chg s v))) = scale eps fh bars := by
  unfold scale
  rw [sum_pow_map bars fun x hx => barLen_map hs eps (hb x hx), sum_pow_map bars fun x _ => hEdge_map hf x,
    mul_div_mul_left _ _ (pow_ne_zero d hs.ne')]

theorem forceVec_map (hs : 0 < s) (eps : ℝ) {fh fh' : (Fin d → ℝ) → ℝ} (hf : ∀ x, fh' (chg s v x) = s * fh x) (L0 sc : ℝ) {x : Bar d}
    (hx : x.2.1 ≠ x.2.2) (k : Fin d) : forceVec eps fh' L0 sc (onBar (chg s v) x) k = s * forceVec eps fh L0 sc x k := by
  have hF : barForce eps fh' L0 sc (onBar (chg s v) x) = s * barForce eps fh L0 sc x := by
    unfold barForce target
    simp only [barLen_map hs eps hx, hEdge_map hf]
    rw [show s * hEdge fh x * L0 * sc - s * barLen eps x = s * (hEdge fh x * L0 * sc - barLen eps x) by ring]
    by_cases h : hEdge fh x * L0 * sc - barLen eps x < 0
    · rw [if_pos h, if_pos (mul_neg_of_pos_of_neg hs h), mul_zero]
    · rw [if_neg h, if_neg (not_lt.2 (mul_nonneg hs.le (not_lt.1 h)))]
  unfold forceVec
  rw [hF, barLen_map hs eps hx, barVec_map, mul_div_mul_left _ _ hs.ne']
  ring

theorem triples_map (hs : 0 < s) (eps : ℝ) {fh fh' : (Fin d → ℝ) → ℝ} (hf : ∀ x, fh' (chg s v x) = s * fh x) (L0 sc : ℝ) {x : Bar d}
    (hx : x.2.1 ≠ x.2.2) : triples eps fh' L0 sc (onBar (chg s v) x) = (triples eps fh L0 sc x).map fun e => (e.1, e.2.1, s * e.2.2) := by
  unfold triples
  simp only [List.map_append, List.map_map, forceVec_map hs eps hf L0 sc hx, Function.comp_def, mul_neg]
  rfl

theorem cooEntry_map (l : List (ℕ × ℕ × ℝ)) (i j : ℕ) : Laplace.cooEntry (l.map fun e => (e.1, e.2.1, s * e.2.2)) i j = s * Laplace.cooEntry l i j := by
  unfold Laplace.cooEntry
  induction l with
  | nil => simp
  | cons a l ih =>
    simp only [List.map_cons, List.filter_cons]
    split <;> simp_all [mul_add]

/-- All bars have two different ends. -/
def Proper (p : List (Fin d → ℝ)) (t : List (List ℕ)) : Prop := p.Nodup ∧ ∀ r ∈ t, r.Nodup

theorem colPair_mem {t : List (List ℕ)} {i j : ℕ} (hij : i ≠ j) (ht : ∀ r ∈ t, r.Nodup) {l : List (ℕ × ℕ)} (h : colPair t i j = .ok l) :
    ∀ e ∈ l, e.1 ≠ e.2 := by
  intro e he
  obtain ⟨r, hr, h1⟩ := forall₂_right (mapM_forall₂.1 h) e he
  simp only [bind, Except.bind, pure, Except.pure] at h1
  split at h1
  · simp at h1
  rename_i a ha
  split at h1
  · simp at h1
  rename_i b hb
  simp only [Except.ok.injEq] at h1
  subst h1
  intro hab
  simp only at hab
  subst hab
  have h2 := item_ok.1 ha
  have h3 := item_ok.1 hb
  exact hij ((List.nodup_iff_injective_get.1 (ht r hr)) (a₁ := ⟨i, (List.getElem?_eq_some_iff.1 h2).1⟩) (a₂ := ⟨j, (List.getElem?_eq_some_iff.1 h3).1⟩)
    (by simp [(List.getElem?_eq_some_iff.1 h2).2, (List.getElem?_eq_some_iff.1 h3).2]) |> Fin.mk.inj_iff.1)

theorem getBars_ne {t : List (List ℕ)} (ht : ∀ r ∈ t, r.Nodup) {w : ℕ} {es : List (ℕ × ℕ)} (h : getBars t w = .ok es) : ∀ e ∈ es, e.1 ≠ e.2 := by
  have key : ∀ l : List (ℕ × ℕ), (∀ e ∈ l, e.1 ≠ e.2) → ∀ e ∈ uniqueEdges l, e.1 ≠ e.2 := by
    rintro l hl ⟨a, b⟩ he
    rcases (uniqueEdges_mem.1 he).2 with h | h
    · exact hl _ h
    · exact fun hab => hl _ h hab.symm
  unfold getBars at h
  simp only [bind, Except.bind, pure, Except.pure] at h
  split at h
  · simp at h
  rename_i e1 h1
  split at h
  · simp at h
  rename_i e2 h2
  split at h
  · simp at h
  rename_i e3 h3
  have a1 := colPair_mem (by decide) ht h1
  have a2 := colPair_mem (by decide) ht h2
  have a3 := colPair_mem (by decide) ht h3
  split at h
  · split at h
    · simp at h
    rename_i e4 h4
    split at h
    · simp at h
    rename_i e5 h5
    split at h
    · simp at h
    rename_i e6 h6
    have a4 := colPair_mem (by decide) ht h4
    have a5 := colPair_mem (by decide) ht h5
    have a6 := colPair_mem (by decide) ht h6
    simp only [Except.ok.injEq] at h
    subst h
    apply key
    intro e he
    simp only [List.mem_append] at he
    rcases he with ((((he | he) | he) | he) | he) | he
    exacts [a1 e he, a2 e he, a3 e he, a4 e he, a5 e he, a6 e he]
  · simp only [Except.ok.injEq] at h
    subst h
    apply key
    intro e he
    simp only [List.mem_append] at he
    rcases he with (he | he) | he
    exacts [a1 e he, a2 e he, a3 e he]

/-- **Forces scale with the unit of length.** -/
theorem computeForces_map (hs : 0 < s) (eps : ℝ) {fh fh' : (Fin d → ℝ) → ℝ} (hf : ∀ x, fh' (chg s v x) = s * fh x) (L0 : ℝ) {p : List (Fin d → ℝ)}
    {t : List (List ℕ)} (hp : Proper p t) :
    computeForces eps (p.map (chg s v)) t fh' L0 = (computeForces eps p t fh L0).map (List.map (chg s 0)) := by
  unfold computeForces
  cases he : getBars t (d + 1) with
  | error e => rfl
  | ok es =>
    have hm : es.mapM (barOf (p.map (chg s v))) = (es.mapM (barOf p)).map (List.map (onBar (chg s v))) := by
      rw [← mapM_map_except]
      exact mapM_congr fun e _ => barOf_map _ p e
    simp only [bind, Except.bind, pure, Except.pure, hm]
    cases hb : es.mapM (barOf p) with
    | error e => rfl
    | ok bars =>
      have hne : ∀ x ∈ bars, x.2.1 ≠ x.2.2 := by
        intro x hx
        obtain ⟨e, hee, h1⟩ := forall₂_right (mapM_forall₂.1 hb) x hx
        unfold barOf at h1
        simp only [bind, Except.bind, pure, Except.pure] at h1
        split at h1
        · simp at h1
        rename_i a ha
        split at h1
        · simp at h1
        rename_i b hb'
        simp only [Except.ok.injEq] at h1
        subst h1
        intro hab
        simp only at hab
        have h2 := item_ok.1 ha
        have h3 := item_ok.1 hb'
        refine getBars_ne hp.2 he e hee ?_
        have := (List.nodup_iff_injective_get.1 hp.1) (a₁ := ⟨e.1, (List.getElem?_eq_some_iff.1 h2).1⟩) (a₂ := ⟨e.2, (List.getElem?_eq_some_iff.1 h3).1⟩)
          (by simp [(List.getElem?_eq_some_iff.1 h2).2, (List.getElem?_eq_some_iff.1 h3).2, hab])
        exact Fin.mk.inj_iff.1 this
      simp only [Except.map, Except.ok.injEq, scale_map hs eps hf hne]
      have htr : (bars.map (onBar (chg s v))).flatMap (triples eps fh' L0 (scale eps fh bars)) =
          (bars.flatMap (triples eps fh L0 (scale eps fh bars))).map fun e => (e.1, e.2.1, s * e.2.2) := by
        rw [List.flatMap_map, List.map_flatMap]
        apply List.flatMap_congr
        intro x hx
        exact triples_map hs eps hf L0 _ (hne x hx)
      rw [htr]
      unfold dense
      rw [List.map_map, List.length_map]
      apply List.map_congr_left
      intro i _
      funext k
      simp only [cooEntry_map, Function.comp, chg, Pi.zero_apply, add_zero]

theorem zeroAt_map (ifix : List ℕ) (F : List (Fin d → ℝ)) : zeroAt ifix (F.map (chg s 0)) = (zeroAt ifix F).map (chg s 0) := by
  unfold zeroAt
  rw [List.zipIdx_map, List.map_map, List.map_map]
  apply List.map_congr_left
  rintro ⟨x, i⟩ -
  simp only [Function.comp, Prod.map_apply, id]
  split
  · funext k; simp [chg]
  · rfl

theorem advance_map (deltaT : ℝ) : ∀ p F : List (Fin d → ℝ), advance deltaT (p.map (chg s v)) (F.map (chg s 0)) = (advance deltaT p F).map (chg s v)
  | [], _ => rfl
  | _ :: _, [] => rfl
  | a :: p, f :: F => by
    have := advance_map deltaT p F
    simp only [advance, List.map_cons, List.zipWith_cons_cons] at this ⊢
    rw [this]
    congr 1
    funext k
    simp only [chg, Pi.zero_apply]; ring

theorem argmin_congr {α : Type} {f g : α → ℝ} (h : ∀ a b, f a < f b ↔ g a < g b) (l : List α) : l.argmin f = l.argmin g := by
  unfold List.argmin
  congr 1
  funext o b
  unfold List.argAux
  cases o with
  | none => rfl
  | some c => simp only [h]

theorem closestNode_map (hs : 0 < s) (p : List (Fin d → ℝ)) (x : Fin d → ℝ) : closestNode (p.map (chg s v)) (chg s v x) = closestNode p x := by
  have gen : ∀ (n m : ℕ) (h : n = m) (w : Fin n → Fin d → ℝ) (w' : Fin m → Fin d → ℝ), (∀ i, w' (Fin.cast h i) = chg s v (w i)) →
      Laplace.closest (chg s v x) w' = Laplace.closest x w := by
    rintro n m rfl w w' hw
    unfold Laplace.closest
    rw [argmin_congr (g := fun i => ∑ k, (w i k - x k) ^ 2)]
    intro a b
    have : ∀ i, (∑ k, (w' i k - chg s v x k) ^ 2) = s ^ 2 * ∑ k, (w i k - x k) ^ 2 := by
      intro i
      rw [Finset.mul_sum]
      apply Finset.sum_congr rfl
      intro k _
      have := hw i
      simp only [Fin.cast_eq_self] at this
      rw [this]
      simp only [chg]; ring
    simp only [this]
    exact mul_lt_mul_iff_right₀ (by positivity)
  unfold closestNode
  apply gen _ _ (by simp)
  intro i
  simp

/-! ### The loop -/

/-- `E'` is `E` in other units: lengths times `s`, points moved by `v`. Pure numbers (`delta_t`, `max_iter`, the machine precision `eps`, flags) are the
same. Both runs are on one process; the triangulation of the transformed points is the transformed triangulation. -/
structure EnvMove (s : ℝ) (v : Fin d → ℝ) (E E' : Env d κ ρ) : Prop where
  dt : ∀ p, E'.dt (p.map (chg s v)) = onMesh (chg s v) (E.dt p)
  fd : ∀ x, E'.fd (chg s v x) = s * E.fd x
  subs : List.Forall₂ (fun f f' => ∀ x, f' (chg s v x) = s * f x) E.subs E'.subs
  fh : ∀ x, E'.fh (chg s v x) = s * E.fh x
  h0 : E'.h0 = s * E.h0
  deltaT : E'.deltaT = E.deltaT
  geps : E'.geps = s * E.geps
  deps : E'.deps = s * E.deps
  eps : E'.eps = E.eps
  pfix : E'.pfix = E.pfix.map (chg s v)
  rank : E'.rank = E.rank
  size : E.size = 1
  size' : E'.size = 1
  maxIter : E'.maxIter = E.maxIter
  opts : E'.opts = E.opts

/-- The tools of the clean-up correspond as well. -/
structure EnvAlong (s : ℝ) (v : Fin d → ℝ) (E E' : Env d κ ρ) : Prop extends EnvMove s v E E' where
  tools : ToolsAlong (chg s v) E.tools E'.tools

/-- What the triangulation library returns: distinct vertices, cells of `d + 1` distinct vertices. -/
structure DtOk (x : List (Fin d → ℝ) × List (List ℕ)) : Prop where
  nodup : x.1.Nodup
  width : ∀ r ∈ x.2, r.length = d + 1
  cells : ∀ r ∈ x.2, r.Nodup

/-- The same outcome in other units. -/
def onOutcome (φ : (Fin d → ℝ) → Fin d → ℝ) : Outcome d → Outcome d
  | .running st => .running ⟨st.count, st.p.map φ, st.tri⟩
  | .done p t k => .done (p.map φ) t k
  | .raised e => .raised e

/-- The guard of the Newton steps is idle in a pass of the loop that moves the points. -/
def CalmMove (s : ℝ) (E : Env d κ ρ) (p : List (Fin d → ℝ)) (t : List (List ℕ)) (ifix : List ℕ) : Prop :=
  ∀ F, computeForces E.eps p t E.fh (L0multOf d) = .ok F → CalmAll s E.deps E.h0 0 (E.fd :: E.subs) (advance E.deltaT p (zeroAt ifix F))

/-- The guard of the Newton steps is idle in the last pass. -/
def CalmFinish (s : ℝ) (E : Env d κ ρ) (p : List (Fin d → ℝ)) (t : List (List ℕ)) : Prop :=
  ∀ p1 t1 bid, termination E.tools E.rank E.size false E.opts p t = .ok (p1, t1) → getBoundaryVertices E.tools.rk t1 d = .ok bid →
    CalmImprove s E.fd E.deps bid 5 0 1 p1

/-- The guard is idle in the pass that starts with `st`. -/
def CalmPass (s : ℝ) (E : Env d κ ρ) (st : State d) : Prop :=
  ∀ p t ifix inv r, topology E st = .ok (p, t, ifix, inv, r) →
    if (st.count : ℝ) = E.maxIter - 1 then CalmFinish s E p t else CalmMove s E p t ifix

theorem topology_map (hs : 0 < s) {E E' : Env d κ ρ} (h : EnvMove s v E E') {st : State d} (hd : DtOk (E.dt st.p)) (tri : ℕ) :
    topology E' ⟨st.count, st.p.map (chg s v), tri⟩ = (topology E st).map fun x => (x.1.map (chg s v), x.2) := by
  unfold topology
  simp only [h.dt, onMesh, h.size, h.size', h.pfix, h.geps, gt_iff_lt, lt_irrefl, if_false, bind, Except.bind, pure, Except.pure]
  rw [List.mapM_map, show closestNode ((E.dt st.p).1.map (chg s v)) ∘ chg s v = closestNode (E.dt st.p).1 from funext (closestNode_map hs _)]
  cases E.pfix.mapM (closestNode (E.dt st.p).1) with
  | error e => rfl
  | ok ifix =>
    simp only []
    rw [removeOutside_map hs h.fd _ _ hd.width]
    cases removeOutside E.fd E.geps (E.dt st.p).1 (E.dt st.p).2 <;> rfl

theorem move_map (hs : 0 < s) {E E' : Env d κ ρ} (h : EnvMove s v E E') {p : List (Fin d → ℝ)} {t : List (List ℕ)} {ifix inv : List ℕ} {r : ℕ}
    (hp : Proper p t) (hc : CalmMove s E p t ifix) : move E' (p.map (chg s v)) t ifix inv r = (move E p t ifix inv r).map (List.map (chg s v)) := by
  unfold move
  rw [h.eps, computeForces_map hs E.eps h.fh _ hp]
  cases hF : computeForces E.eps p t E.fh (L0multOf d) with
  | error e => rfl
  | ok F =>
    simp only [Except.map, bind, Except.bind, pure, Except.pure, zeroAt_map, h.deltaT, h.deps, h.h0, h.size, h.size', h.rank, advance_map,
      projectAll_map hs (List.Forall₂.cons h.fd h.subs) 0 (hc F hF), gt_iff_lt, lt_irrefl, if_false]
    by_cases hr : E.rank = 0
    · simp only [hr, if_true]
      have hem : ((zeroAt ifix F).map (chg s 0)).isEmpty = (zeroAt ifix F).isEmpty := by simp
      rw [hem]
      split
      · rfl
      have hmv : (∀ f ∈ (zeroAt ifix F).map (chg s 0), E.deltaT * Real.sqrt (∑ k, f k ^ 2) < 1000 * (s * E.h0)) ↔
          ∀ f ∈ zeroAt ifix F, E.deltaT * Real.sqrt (∑ k, f k ^ 2) < 1000 * E.h0 := by
        simp only [List.mem_map, forall_exists_index, and_imp, forall_apply_eq_imp_iff₂]
        refine forall₂_congr fun f _ => ?_
        have : Real.sqrt (∑ k, chg s 0 f k ^ 2) = s * Real.sqrt (∑ k, f k ^ 2) := by
          simp only [chg, Pi.zero_apply, add_zero, mul_pow]
          rw [← Finset.mul_sum, Real.sqrt_mul (sq_nonneg s), Real.sqrt_sq hs.le]
        rw [this, show E.deltaT * (s * Real.sqrt (∑ k, f k ^ 2)) = s * (E.deltaT * Real.sqrt (∑ k, f k ^ 2)) by ring,
          show 1000 * (s * E.h0) = s * (1000 * E.h0) by ring]
        exact mul_lt_mul_iff_right₀ hs
      by_cases hm : ∀ f ∈ zeroAt ifix F, E.deltaT * Real.sqrt (∑ k, f k ^ 2) < 1000 * E.h0
      · simp only [if_pos hm, if_pos (hmv.2 hm)]
      · simp only [if_neg hm, if_neg (mt hmv.1 hm)]
        rfl
    · simp only [hr, if_false]

theorem finish_map (hs : 0 < s) {E E' : Env d κ ρ} (h : EnvAlong s v E E') (hT : ToolsOk E.tools) {p : List (Fin d → ℝ)} {t : List (List ℕ)}
    (ht : ∀ r ∈ t, r.length = d + 1) (hc : CalmFinish s E p t) : finish E' (p.map (chg s v)) t = (finish E p t).map (onMesh (chg s v)) := by
  unfold finish
  rw [h.rank, h.size', h.opts, termination_map h.tools]
  have hsz : termination E.tools E.rank E.size false E.opts p t = termination E.tools E.rank 1 false E.opts p t := by rw [h.size]
  rw [hsz]
  cases hx : termination E.tools E.rank 1 false E.opts p t with
  | error e => rfl
  | ok x =>
    obtain ⟨p1, t1⟩ := x
    simp only [Except.map, bind, Except.bind, pure, Except.pure, onMesh]
    by_cases hr : E.rank = 0
    · simp only [hr, if_true]
      have hw : ∀ r ∈ t1, r.length = d + 1 := by
        rw [hr] at hx
        refine (termination_tidy hT hx).2 (d + 1) ?_
        intro p2 t2 h2
        rw [if_neg (by simp)] at h2
        rw [h2.2]
        exact ht
      unfold improve
      rw [h.tools.rk, h.deps]
      simp only [bind, Except.bind]
      cases hb : getBoundaryVertices E.tools.rk t1 d with
      | error e => rfl
      | ok bid =>
        simp only []
        rw [improveLoop_map hs h.fd 5 0 1 (hc p1 t1 bid (hsz.trans hx) hb)]
        cases improveLoop E.fd E.deps bid 5 0 1 p1 with
        | error e => rfl
        | ok q =>
          simp only [Except.map]
          rw [h.h0, mul_assoc, removeOutside_map hs h.fd _ _ hw]
          cases removeOutside E.fd (E.h0 * 0.001) q t1 <;> rfl
    · simp only [hr, if_false]

theorem step_map (hs : 0 < s) {E E' : Env d κ ρ} (h : EnvAlong s v E E') (hT : ToolsOk E.tools) {st : State d} (hd : DtOk (E.dt st.p)) (hc : CalmPass s E st) :
    step E' ⟨st.count, st.p.map (chg s v), st.tri⟩ = onOutcome (chg s v) (step E st) := by
  unfold step
  rw [topology_map hs h.toEnvMove hd]
  cases ht : topology E st with
  | error e => rfl
  | ok x =>
    obtain ⟨p, t, ifix, inv, r⟩ := x
    have hc' := hc p t ifix inv r ht
    obtain ⟨hp, -, hrem⟩ := topology_serial h.size ht
    have hsub := (removeOutside_sublist hrem).subset
    simp only [Except.map, h.maxIter]
    by_cases hm : (st.count : ℝ) = E.maxIter - 1
    · simp only [if_pos hm] at hc' ⊢
      rw [finish_map hs h hT (fun r hr => hd.width r (hsub hr)) hc']
      cases finish E p t <;> rfl
    · simp only [if_neg hm] at hc' ⊢
      rw [move_map hs h.toEnvMove ⟨hp ▸ hd.nodup, fun r hr => hd.cells r (hsub hr)⟩ hc']
      cases move E p t ifix inv r <;> rfl

/-- The loop, from any state: as long as the triangulations are proper and the guard of the Newton steps is idle, the runs agree. -/
theorem run_map (hs : 0 < s) {E E' : Env d κ ρ} (h : EnvAlong s v E E') (hT : ToolsOk E.tools) (n : ℕ) (st : State d)
    (hc : ∀ m st', run E m st = .running st' → DtOk (E.dt st'.p) ∧ CalmPass s E st') :
    run E' n ⟨st.count, st.p.map (chg s v), st.tri⟩ = onOutcome (chg s v) (run E n st) := by
  induction n generalizing st with
  | zero => rfl
  | succ n ih =>
    unfold run
    rw [step_map hs h hT (hc 0 st rfl).1 (hc 0 st rfl).2]
    cases hst : step E st with
    | raised e => rfl
    | done p t k => rfl
    | running st' =>
      simp only [onOutcome]
      refine ih st' fun m st'' hm => hc (m + 1) st'' ?_
      rw [run, hst]
      exact hm

/-! ### Initial points -/

/-- The displacement along axis `k`. -/
def vOf (v : Fin d → ℝ) (k : ℕ) : ℝ := if h : k < d then v ⟨k, h⟩ else 0

/-- The limits of the axes `i, i + 1, ...` in the other units. -/
def chgPairs (s : ℝ) (v : Fin d → ℝ) : ℕ → List (ℝ × ℝ) → List (ℝ × ℝ)
  | _, [] => []
  | i, b :: bs => (s * b.1 + vOf v i, s * b.2 + vOf v i) :: chgPairs s v (i + 1) bs

open Init

theorem gridCount_map (hs : 0 < s) (a b h c : ℝ) : gridCount (s * a + c) (s * b + c) (s * h) = gridCount a b h := by
  unfold gridCount
  rw [show s * b + c - (s * a + c) = s * (b - a) by ring, mul_div_mul_left _ _ hs.ne']

theorem gridVals_map (a h c : ℝ) (n : ℕ) : gridVals (s * a + c) (s * h) n = (gridVals a h n).map fun x => s * x + c := by
  unfold gridVals
  rw [List.map_map]
  apply List.map_congr_left
  intro i _
  simp only [Function.comp]; ring

theorem mgridAxis_map (hs : 0 < s) (h c : ℝ) (b : ℝ × ℝ) :
    mgridAxis (s * h) (s * b.1 + c, s * b.2 + c) = (mgridAxis h b).map (List.map fun x => s * x + c) := by
  unfold mgridAxis
  have h0 : s * h = 0 ↔ h = 0 := by simp [hs.ne']
  have hc : gridCount (s * b.1 + c) (s * b.2 + c + s * h) (s * h) = gridCount b.1 (b.2 + h) h := by
    rw [show s * b.2 + c + s * h = s * (b.2 + h) + c by ring, gridCount_map hs]
  simp only [h0, hc, gridVals_map]
  split
  · rfl
  split <;> rfl

theorem shift_map (h : ℝ) (i : ℕ) : shift (s * h) i = s * shift h i := by
  unfold shift
  split <;> ring

theorem staggered2_map (v : Fin 2 → ℝ) (h : ℝ) (xs ys : List ℝ) :
    staggered2 (s * h) (xs.map fun x => s * x + v 0) (ys.map fun y => s * y + v 1) = (staggered2 h xs ys).map (chg s v) := by
  unfold staggered2
  rw [List.zipIdx_map, List.flatMap_map, List.map_flatMap]
  apply List.flatMap_congr
  intro x _
  rw [List.map_map, List.map_map]
  apply List.map_congr_left
  intro y _
  funext k
  fin_cases k <;> simp [chg, shift_map] <;> ring

theorem staggered3_map (v : Fin 3 → ℝ) (h : ℝ) (xs ys zs : List ℝ) :
    staggered3 (s * h) (xs.map fun x => s * x + v 0) (ys.map fun y => s * y + v 1) (zs.map fun z => s * z + v 2) = (staggered3 h xs ys zs).map (chg s v) := by
  unfold staggered3
  rw [List.zipIdx_map, List.flatMap_map, List.map_flatMap]
  apply List.flatMap_congr
  intro x _
  rw [List.flatMap_map, List.map_flatMap]
  apply List.flatMap_congr
  intro y _
  rw [List.map_map, List.map_map]
  apply List.map_congr_left
  intro z _
  funext k
  fin_cases k <;> simp [chg, shift_map] <;> ring

theorem createStaggeredGrid_map (hs : 0 < s) (h : ℝ) : ∀ (d : ℕ) (v : Fin d → ℝ) (b : List (ℝ × ℝ)),
    createStaggeredGrid (s * h) d (chgPairs s v 0 b) = (createStaggeredGrid h d b).map (List.map (chg s v))
  | 2, v, [bx, by'] => by
    simp only [createStaggeredGrid, chgPairs, mgridAxis_map hs]
    cases mgridAxis h bx with
    | error e => rfl
    | ok xs =>
      cases mgridAxis h by' with
      | error e => rfl
      | ok ys => exact congrArg Except.ok (staggered2_map v h xs ys)
  | 3, v, [bx, by', bz] => by
    simp only [createStaggeredGrid, chgPairs, mgridAxis_map hs]
    cases mgridAxis h bx with
    | error e => rfl
    | ok xs =>
      cases mgridAxis h by' with
      | error e => rfl
      | ok ys =>
        cases mgridAxis h bz with
        | error e => rfl
        | ok zs => exact congrArg Except.ok (staggered3_map v h xs ys zs)
  | 0, _, _ | 1, _, _ | _ + 4, _, _ => rfl
  | 2, _, [] | 2, _, [_] | 2, _, _ :: _ :: _ :: _ => rfl
  | 3, _, [] | 3, _, [_] | 3, _, [_, _] | 3, _, _ :: _ :: _ :: _ :: _ => rfl

theorem localBox_map (h : ℝ) (axis : ℕ) : ∀ (i : ℕ) (b : List (ℝ × ℝ)),
    localBox (s * h) 1 0 axis i (chgPairs s v i b) = (localBox h 1 0 axis i b).map (chgPairs s v i)
  | _, [] => rfl
  | i, b :: bs => by
    have ih := localBox_map h axis (i + 1) bs
    simp only [localBox, chgPairs, ih, localLims, if_true, lims]
    by_cases ha : i = axis
    · simp only [if_pos ha, bind, Except.bind, pure, Except.pure]
      cases localBox h 1 0 axis (i + 1) bs with
      | error e => rfl
      | ok bs' =>
        simp only [Except.map, chgPairs, Except.ok.injEq, List.cons.injEq, and_true, Prod.mk.injEq]
        constructor <;> push_cast <;> ring
    · simp only [if_neg ha, bind, Except.bind, pure, Except.pure]
      cases localBox h 1 0 axis (i + 1) bs with
      | error e => rfl
      | ok bs' => rfl

theorem rawPoints_map (hs : 0 < s) (h : ℝ) (v : Fin d → ℝ) (axis : ℕ) (b : List (ℝ × ℝ)) (lsf : Bool) :
    rawPoints (s * h) d 1 0 axis (chgPairs s v 0 b) lsf = (rawPoints h d 1 0 axis b lsf).map (List.map (chg s v)) := by
  unfold rawPoints makeInitPoints
  cases lsf
  · simp only [Bool.not_false, if_true, Bool.and_false, Bool.false_eq_true, if_false, localBox_map, bind, Except.bind]
    cases localBox h 1 0 axis 0 b with
    | error e => rfl
    | ok b' => exact createStaggeredGrid_map hs h d v b'
  · simp only [gt_iff_lt, lt_irrefl, decide_false, Bool.false_and, Bool.not_true, Bool.false_eq_true, if_false]
    exact createStaggeredGrid_map hs h d v b

theorem inside_map (hs : 0 < s) {f f' : (Fin d → ℝ) → ℝ} (hf : ∀ x, f' (chg s v x) = s * f x) (geps : ℝ) (p : List (Fin d → ℝ)) :
    inside f' (s * geps) (p.map (chg s v)) = (inside f geps p).map (chg s v) := by
  unfold inside
  rw [List.filter_map]
  congr 1
  apply List.filter_congr
  intro x _
  simp only [Function.comp, hf, mul_lt_mul_iff_right₀ hs]

theorem minOf_map (hs : 0 < s) : ∀ l : List ℝ, minOf (l.map fun x => s * x) = (minOf l).map fun x => s * x
  | [] => rfl
  | a :: l => by
    have : ∀ (l : List ℝ) (a : ℝ), (l.map fun x => s * x).foldl min (s * a) = s * l.foldl min a := by
      intro l
      induction l with
      | nil => intro a; rfl
      | cons b l ih =>
        intro a
        simp only [List.map_cons, List.foldl_cons]
        rw [← mul_min_of_nonneg _ _ hs.le, ih]
    simp only [List.map_cons, minOf, Except.map, this]

theorem localR0m_map (hs : 0 < s) (b : Bool) (h0 : ℝ) (l : List ℝ) :
    localR0m b (s * h0) (l.map fun x => s * x) = (localR0m b h0 l).map fun x => s * x := by
  unfold localR0m
  rw [minOf_map hs]
  cases minOf l with
  | error e => rfl
  | ok m =>
    simp only [Except.map, bind, Except.bind, pure, Except.pure, Except.ok.injEq]
    have : 1.1 * (s * h0) < s * m ↔ 1.1 * h0 < m := by
      rw [show 1.1 * (s * h0) = s * (1.1 * h0) by ring]
      exact mul_lt_mul_iff_right₀ hs
    simp only [this]
    split
    · split
      · ring
      · rfl
    · rfl

theorem reject_map (hs : 0 < s) {fh fh' : (Fin d → ℝ) → ℝ} (hf : ∀ x, fh' (chg s v x) = s * fh x) (rand : ℕ → ℝ) (r0m : ℝ) (p : List (Fin d → ℝ)) :
    reject rand (s * r0m) fh' (p.map (chg s v)) = (reject rand r0m fh p).map (chg s v) := by
  unfold reject
  rw [List.zipIdx_map, List.filter_map, List.map_map, List.map_map]
  have : ((fun xi : (Fin d → ℝ) × ℕ => decide (rand xi.2 < (s * r0m) ^ d / fh' xi.1 ^ d)) ∘ Prod.map (chg s v) id) =
      fun xi => decide (rand xi.2 < r0m ^ d / fh xi.1 ^ d) := by
    funext xi
    simp only [Function.comp, Prod.map_fst, Prod.map_snd, id, hf, mul_pow]
    rw [mul_div_mul_left _ _ (pow_ne_zero d hs.ne')]
  rw [this]
  rfl

/-- **Initial points scale with the unit of length** (one process). -/
theorem serialPoints_map (hs : 0 < s) {I I' : Input d} (h0 : I'.h0 = s * I.h0) (hg : I'.geps = s * I.geps) (hb : I'.bbox = chgPairs s v 0 I.bbox)
    (hfd : ∀ x, I'.fd (chg s v x) = s * I.fd x) (hfh : ∀ x, I'.fh 0 (chg s v x) = s * I.fh 0 x) (hp : I'.pfix = I.pfix.map (chg s v))
    (ha : I'.axis = I.axis) (hl : I'.lsf = I.lsf) (hr : I'.r0mIsH0 = I.r0mIsH0) (hrand : I'.rand = I.rand) :
    serialPoints I' = (serialPoints I).map (List.map (chg s v)) := by
  unfold serialPoints candidates rankR0m rankPoints
  rw [h0, hb, ha, hl, rawPoints_map hs, hg, hr, hp, hrand]
  cases rawPoints I.h0 d 1 0 I.axis I.bbox I.lsf with
  | error e => rfl
  | ok ps =>
    simp only [Except.map, bind, Except.bind, pure, Except.pure, inside_map hs hfd]
    have : ((inside I.fd I.geps ps).map (chg s v)).map (I'.fh 0) = ((inside I.fd I.geps ps).map (I.fh 0)).map fun x => s * x := by
      rw [List.map_map, List.map_map]
      exact List.map_congr_left fun x _ => hfh x
    rw [this, localR0m_map hs]
    cases localR0m I.r0mIsH0 I.h0 ((inside I.fd I.geps ps).map (I.fh 0)) with
    | error e => rfl
    | ok m => simp only [Except.map, reject_map hs hfh, List.map_append]

/-! ### The arguments in other units -/

/-- The inverse of `chg`. -/
def unchg (s : ℝ) (v : Fin d → ℝ) (y : Fin d → ℝ) : Fin d → ℝ := fun k => (y k - v k) / s

theorem chg_unchg (hs : 0 < s) (y : Fin d → ℝ) : chg s v (unchg s v y) = y := by
  funext k
  simp only [chg, unchg]
  field_simp
  ring

theorem unchg_chg (hs : 0 < s) (x : Fin d → ℝ) : unchg s v (chg s v x) = x := by
  funext k
  simp only [chg, unchg]
  field_simp
  ring

/-- A function that gives a length at a point (signed distance, edge length), in the other units. -/
def lenFun (s : ℝ) (v : Fin d → ℝ) (f : (Fin d → ℝ) → ℝ) : (Fin d → ℝ) → ℝ := fun y => s * f (unchg s v y)

theorem lenFun_chg (hs : 0 < s) (f : (Fin d → ℝ) → ℝ) (x : Fin d → ℝ) : lenFun s v f (chg s v x) = s * f x := by
  rw [lenFun, unchg_chg hs]

/-- The entries `i, i + 1, ...` of a bounding box `(x1, x2, y1, y2, ...)` in the other units. -/
def chgBox (s : ℝ) (v : Fin d → ℝ) : ℕ → List ℝ → List ℝ
  | _, [] => []
  | i, a :: l => (s * a + vOf v (i / 2)) :: chgBox s v (i + 1) l

/-- The same for Python numbers; integers, which `generate_mesh` rejects in a box, stay. -/
def chgNums (s : ℝ) (v : Fin d → ℝ) : ℕ → List Gen.Num → List Gen.Num
  | _, [] => []
  | i, .flt a :: l => .flt (s * a + vOf v (i / 2)) :: chgNums s v (i + 1) l
  | i, .int z :: l => .int z :: chgNums s v (i + 1) l

/-- An option in the other units: `h0` is a length, `bbox` a box, the rest are pure numbers. -/
def chgOpt (s : ℝ) (v : Fin d → ℝ) (key : String) (o : Gen.Py) : Gen.Py :=
  if key = "h0" then match o with | .num n => .num (.flt (s * n.val)) | o => o
  else if key = "bbox" then match o with
    | .tup l => .tup (chgNums s v 0 l)
    | .lst l => .lst (chgNums s v 0 l)
    | o => o
  else o

/-- The keyword arguments in the other units. -/
def chgKw (s : ℝ) (v : Fin d → ℝ) (kw : Gen.Kwargs) : Gen.Kwargs := kw.map fun e => (e.1, chgOpt s v e.1 e.2)

/-- The domain in the other units. -/
def chgDomain (s : ℝ) (v : Fin d → ℝ) : Gen.DomainArg (Fin d → ℝ) → Gen.DomainArg (Fin d → ℝ)
  | .geometry fd b cs => .geometry (lenFun s v fd) (chgNums s v 0 b) (cs.map (List.map (chg s v)))
  | .callable fd => .callable (lenFun s v fd)
  | .other => .other

/-- The edge lengths in the other units. -/
def chgEdge (s : ℝ) (v : Fin d → ℝ) : Gen.SizeArg (Fin d → ℝ) → Gen.SizeArg (Fin d → ℝ)
  | .sizeFunction fh b h => .sizeFunction (lenFun s v fh) (chgNums s v 0 b) (s * h)
  | .callable fh => .callable (lenFun s v fh)
  | .scalar h => .scalar (s * h)
  | .other => .other

/-- Fixed points, user points and subdomains in the other units, with the tools and the triangulation of the second call. -/
def chgRest (s : ℝ) (v : Fin d → ℝ) (T' : Tools d κ ρ) (dt' : List (Fin d → ℝ) → List (Fin d → ℝ) × List (List ℕ)) (R : Generate.Rest d κ ρ) :
    Generate.Rest d κ ρ :=
  { R with
    pfix := R.pfix.map (List.map (chg s v))
    points := R.points.map (List.map (chg s v))
    subs := R.subs.map (lenFun s v)
    tools := T'
    dt := dt' }

/-- The setup in the other units. -/
def chgSetup (s : ℝ) (v : Fin d → ℝ) (S : Gen.Setup (Fin d → ℝ)) : Gen.Setup (Fin d → ℝ) :=
  { S with
    fd := lenFun s v S.fd
    fh := lenFun s v S.fh
    bbox := chgBox s v 0 S.bbox
    h0 := s * S.h0
    corners := S.corners.map (List.map (chg s v)) }

open Gen

theorem chgBox_length (i : ℕ) (l : List ℝ) : (chgBox s v i l).length = l.length := by
  induction l generalizing i with
  | nil => rfl
  | cons a l ih => simp [chgBox, ih]

theorem chgNums_val {l : List Num} (h : checkFloats l = .ok ()) (i : ℕ) : (chgNums s v i l).map Num.val = chgBox s v i (l.map Num.val) := by
  induction l generalizing i with
  | nil => rfl
  | cons a l ih =>
    cases a with
    | int z => simp [checkFloats] at h
    | flt x => simp only [chgNums, List.map_cons, chgBox, Num.val, ih h]

theorem checkFloats_chg (i : ℕ) (l : List Num) : checkFloats (chgNums s v i l) = checkFloats l := by
  induction l generalizing i with
  | nil => rfl
  | cons a l ih => cases a <;> simp [chgNums, checkFloats, ih]

theorem chgBox_inj (hs : 0 < s) {i : ℕ} {l m : List ℝ} : chgBox s v i l = chgBox s v i m ↔ l = m := by
  induction l generalizing i m with
  | nil => cases m <;> simp [chgBox]
  | cons a l ih =>
    cases m with
    | nil => simp [chgBox]
    | cons b m => simp [chgBox, ih, hs.ne']

theorem minmaxFrom_chg (hs : 0 < s) (i : ℕ) (l m : List ℝ) : minmaxFrom i (chgBox s v i l) (chgBox s v i m) = chgBox s v i (minmaxFrom i l m) := by
  induction l generalizing i m with
  | nil => cases m <;> rfl
  | cons a l ih =>
    cases m with
    | nil => rfl
    | cons b m =>
      simp only [chgBox, minmaxFrom, ih, List.cons.injEq, and_true]
      split
      · rw [max_add_add_right, mul_max_of_nonneg _ _ hs.le]
      · rw [min_add_add_right, mul_min_of_nonneg _ _ hs.le]

theorem lookup_chgKw (kw : Kwargs) (key : String) : (chgKw s v kw).lookup key = (kw.lookup key).map (chgOpt s v key) := by
  induction kw with
  | nil => rfl
  | cons e kw ih =>
    obtain ⟨k, o⟩ := e
    simp only [chgKw, List.map_cons, List.lookup_cons]
    by_cases h : key == k
    · simp only [h, Option.map_some]
      rw [eq_of_beq h]
    · simp only [h]
      exact ih

theorem parseKwargs_chg (kw : Kwargs) : parseKwargs (chgKw s v kw) = parseKwargs kw := by
  induction kw with
  | nil => rfl
  | cons e kw ih =>
    obtain ⟨k, o⟩ := e
    have : chgKw s v ((k, o) :: kw) = (k, chgOpt s v k o) :: chgKw s v kw := rfl
    rw [this]
    simp only [parseKwargs, ih]

theorem getOpt_chg (kw : Kwargs) (key : String) (hd : key = "verbose" ∨ key = "max_iter" ∨ key = "h0" ∨ key = "bbox") :
    getOpt defaults (chgKw s v kw) key = (getOpt defaults kw key).map (chgOpt s v key) := by
  unfold getOpt
  rw [lookup_chgKw]
  cases kw.lookup key with
  | some o => rfl
  | none => rcases hd with rfl | rfl | rfl | rfl <;> rfl

/-- A box option in the other units. -/
abbrev chgPy (s : ℝ) (v : Fin d → ℝ) : Py → Py
  | .tup l => .tup (chgNums s v 0 l)
  | .lst l => .lst (chgNums s v 0 l)
  | o => o

theorem checkBbox_chg (b : Py) : checkBbox (chgPy s v b) = checkBbox b := by
  cases b <;> simp [chgPy, checkBbox, checkFloats_chg]

theorem unpackDomain_chg (dom : DomainArg (Fin d → ℝ)) (kw : Kwargs) :
    unpackDomain (chgDomain s v dom) (chgKw s v kw) = (unpackDomain dom kw).map fun x => (lenFun s v x.1, chgPy s v x.2.1, x.2.2.map (List.map (chg s v))) := by
  cases dom with
  | other => rfl
  | geometry fd b cs =>
    simp only [unpackDomain, chgDomain, bind, Except.bind, pure, Except.pure]
    rw [show Py.tup (chgNums s v 0 b) = chgPy s v (.tup b) from rfl, checkBbox_chg]
    cases checkBbox (.tup b) <;> rfl
  | callable fd =>
    simp only [unpackDomain, chgDomain, bind, Except.bind, pure, Except.pure, getOpt_chg kw "bbox" (by simp)]
    cases getOpt defaults kw "bbox" with
    | error e => rfl
    | ok b =>
      have : chgOpt s v "bbox" b = chgPy s v b := by cases b <;> rfl
      simp only [Except.map, this, checkBbox_chg]
      cases checkBbox b <;> rfl

/-- The unpacked sizes in the other units. -/
abbrev chgSizing (s : ℝ) (v : Fin d → ℝ) (x : Sizing (Fin d → ℝ)) : Sizing (Fin d → ℝ) :=
  ⟨lenFun s v x.fh, chgPy s v x.bbox, x.hmin.map fun h => s * h, x.lsf⟩

theorem unpackSizing_chg (e : SizeArg (Fin d → ℝ)) : unpackSizing (chgEdge s v e) = (unpackSizing e).map (chgSizing s v) := by
  cases e with
  | other => rfl
  | sizeFunction fh b h =>
    simp only [unpackSizing, chgEdge, bind, Except.bind, pure, Except.pure]
    rw [show Py.tup (chgNums s v 0 b) = chgPy s v (.tup b) from rfl, checkBbox_chg]
    cases checkBbox (.tup b) <;> rfl
  | callable fh => rfl
  | scalar h => rfl

/-- A box that has passed `_check_bbox`. -/
def Checked (b : Py) : Prop := checkBbox b = .ok ()

theorem mergeBbox_chg (hs : 0 < s) {b0 b1 : Py} (h0 : Checked b0) (h1 : Checked b1) :
    mergeBbox (chgPy s v b0) (chgPy s v b1) = (mergeBbox b0 b1).map (chgBox s v 0) := by
  unfold Checked at h0 h1
  cases b1 <;> cases b0 <;>
    simp_all [checkBbox, chgPy, mergeBbox, seqOf, bind, Except.bind, pure, Except.pure, Except.map, chgNums_val, minmax, minmaxFrom_chg hs]

theorem rebuild_chg (hs : 0 < s) {b0 b1 : Py} (h0 : Checked b0) (h1 : Checked b1) : Rebuild (chgPy s v b0) (chgPy s v b1) ↔ Rebuild b0 b1 := by
  unfold Checked at h0 h1
  cases b1 <;> cases b0 <;> simp_all [checkBbox, chgPy, Rebuild, chgNums_val, chgBox_inj hs]

theorem unpackDomain_checked {dom : DomainArg (Fin d → ℝ)} {kw : Kwargs} {x : ((Fin d → ℝ) → ℝ) × Py × Option (List (Fin d → ℝ))}
    (h : unpackDomain dom kw = .ok x) : Checked x.2.1 := by
  unfold unpackDomain at h
  simp only [bind, Except.bind, pure, Except.pure] at h
  split at h
  · simp at h
  split at h
  · simp at h
  rename_i hc
  cases h
  exact hc

theorem unpackSizing_checked {e : SizeArg (Fin d → ℝ)} {x : Sizing (Fin d → ℝ)} (h : unpackSizing e = .ok x) : Checked x.bbox := by
  unfold unpackSizing at h
  simp only [bind, Except.bind, pure, Except.pure] at h
  split at h
  · simp at h
  split at h
  · simp at h
  rename_i hc
  cases h
  exact hc

/-- The signed distance of the box built from a scaled bounding box is the scaled one. -/
def BoxAlong (s : ℝ) (v : Fin d → ℝ) (boxEval : List ℝ → (Fin d → ℝ) → ℝ) : Prop :=
  ∀ b x, boxEval (chgBox s v 0 b) (chg s v x) = s * boxEval b x

theorem boxEval_chg (hs : 0 < s) {boxEval : List ℝ → (Fin d → ℝ) → ℝ} (hb : BoxAlong s v boxEval) (b : List ℝ) :
    boxEval (chgBox s v 0 b) = lenFun s v (boxEval b) := by
  funext y
  rw [lenFun, ← hb, chg_unchg hs]

theorem asNum_chg (o : Py) : asNum (chgOpt (d := d) s v "h0" o) = (asNum o).map fun x => s * x := by
  cases o <;> rfl

theorem genSetup_chg (hs : 0 < s) {boxEval : List ℝ → (Fin d → ℝ) → ℝ} (hb : BoxAlong s v boxEval) (dom : DomainArg (Fin d → ℝ)) (e : SizeArg (Fin d → ℝ))
    (kw : Kwargs) : genSetup boxEval (chgDomain s v dom) (chgEdge s v e) (chgKw s v kw) = (genSetup boxEval dom e kw).map (chgSetup s v) := by
  unfold genSetup
  rw [parseKwargs_chg, getOpt_chg kw "verbose" (by simp), getOpt_chg kw "h0" (by simp), unpackDomain_chg, unpackSizing_chg]
  simp only [bind, Except.bind, pure, Except.pure]
  cases parseKwargs kw with
  | error e => rfl
  | ok _ =>
  simp only []
  cases getOpt defaults kw "verbose" with
  | error e => rfl
  | ok o =>
  have ho : chgOpt s v "verbose" o = o := rfl
  simp only [Except.map, ho]
  cases asNum o with
  | error e => rfl
  | ok vb =>
  simp only []
  cases selectVerbosity vb with
  | error e => rfl
  | ok talk =>
  simp only []
  cases hx : unpackDomain dom kw with
  | error e => rfl
  | ok x =>
  obtain ⟨fd, b0, cs⟩ := x
  have hc0 : Checked b0 := unpackDomain_checked hx
  simp only []
  cases hz : unpackSizing e with
  | error e => rfl
  | ok z =>
  have hc1 : Checked z.bbox := unpackSizing_checked hz
  simp only [chgSizing]
  rw [mergeBbox_chg hs hc0 hc1]
  cases mergeBbox b0 z.bbox with
  | error e => rfl
  | ok bb =>
  simp only [Except.map, chgBox_length]
  have hneg : ∀ h : ℝ, s * h < 0 ↔ h < 0 := by
    intro h
    constructor
    · intro hh; by_contra hn; exact absurd (mul_nonneg hs.le (not_lt.1 hn)) (not_le.2 hh)
    · exact mul_neg_of_pos_of_neg hs
  have hR := rebuild_chg (s := s) (v := v) hs hc0 hc1
  clear hx hz
  by_cases hRb : Rebuild b0 z.bbox
  · have hRb' := hR.2 hRb
    rw [if_pos hRb, if_pos hRb', boxEval_chg hs hb]
    by_cases hd : bb.length / 2 = 2 ∨ bb.length / 2 = 3
    · simp only [if_pos hd]
      by_cases ho : bb.length % 2 = 1
      · simp only [if_pos ho]; rfl
      simp only [if_neg ho]
      cases z.hmin with
      | some h =>
        simp only [Option.map_some, hneg]
        by_cases hn : h < 0
        · simp only [if_pos hn]; rfl
        · simp only [if_neg hn]
          cases e <;> simp only [chgEdge, chgSetup] <;> split <;> rfl
      | none =>
        simp only [Option.map_none]
        cases getOpt defaults kw "h0" with
        | error e => rfl
        | ok o =>
          simp only [asNum_chg]
          cases asNum o with
          | error e => rfl
          | ok h =>
            simp only [Except.map, hneg]
            by_cases hn : h < 0
            · simp only [if_pos hn]; rfl
            · simp only [if_neg hn]
              cases e <;> simp only [chgEdge, chgSetup] <;> split <;> rfl
    · simp only [if_neg hd]; rfl
  · have hRb' := mt hR.1 hRb
    rw [if_neg hRb, if_neg hRb']
    simp only []
    by_cases ho : bb.length % 2 = 1
    · simp only [if_pos ho]; rfl
    simp only [if_neg ho]
    cases z.hmin with
    | some h =>
      simp only [Option.map_some, hneg]
      by_cases hn : h < 0
      · simp only [if_pos hn]; rfl
      · simp only [if_neg hn]
        cases e <;> simp only [chgEdge, chgSetup] <;> split <;> rfl
    | none =>
      simp only [Option.map_none]
      cases getOpt defaults kw "h0" with
      | error e => rfl
      | ok o =>
        simp only [asNum_chg]
        cases asNum o with
        | error e => rfl
        | ok h =>
          simp only [Except.map, hneg]
          by_cases hn : h < 0
          · simp only [if_pos hn]; rfl
          · simp only [if_neg hn]
            cases e <;> simp only [chgEdge, chgSetup] <;> split <;> rfl

theorem pairs_chg (i : ℕ) : ∀ l : List ℝ, Generate.pairs (chgBox s v (2 * i) l) = chgPairs s v i (Generate.pairs l)
  | [] => rfl
  | [_] => rfl
  | a :: b :: l => by
    have h := pairs_chg (i + 1) l
    rw [show 2 * (i + 1) = 2 * i + 1 + 1 by ring] at h
    simp only [chgBox, Generate.pairs, chgPairs, h, List.cons.injEq, Prod.mk.injEq, and_true]
    rw [show 2 * i / 2 = i by omega, show (2 * i + 1) / 2 = i by omega]
    exact ⟨rfl, rfl⟩

theorem fixOf_chg (hs : 0 < s) (T' : Tools d κ ρ) (dt' : List (Fin d → ℝ) → List (Fin d → ℝ) × List (List ℕ)) (R : Generate.Rest d κ ρ)
    (S : Setup (Fin d → ℝ)) : Generate.fixOf (chgRest s v T' dt' R) (chgSetup s v S) = (Generate.fixOf R S).map (chg s v) := by
  have hu : ∀ o : Option (List (Fin d → ℝ)), unpackPfix (o.map (List.map (chg s v))) 1 = (unpackPfix o 1).map (chg s v) := by
    intro o; cases o <;> rfl
  unfold Generate.fixOf fixedPoints
  simp only [chgRest, chgSetup]
  cases S.corners with
  | none => exact hu _
  | some cs =>
    simp only [Option.map_some, if_true, hu, List.map_append, List.filter_map]
    congr 2
    apply List.filter_congr
    intro c _
    simp only [Function.comp, lenFun_chg hs, gt_iff_lt]
    rw [show -1000 * (R.deps0 * (s * S.h0)) = s * (-1000 * (R.deps0 * S.h0)) by ring]
    simp only [mul_lt_mul_iff_right₀ hs]

theorem initial_chg (hs : 0 < s) (T' : Tools d κ ρ) (dt' : List (Fin d → ℝ) → List (Fin d → ℝ) × List (List ℕ)) (R : Generate.Rest d κ ρ)
    (S : Setup (Fin d → ℝ)) : Generate.initial (chgRest s v T' dt' R) (chgSetup s v S) = (Generate.initial R S).map (List.map (chg s v)) := by
  unfold Generate.initial
  cases hp : R.points with
  | some ps => simp only [chgRest, hp, Option.map_some]; rfl
  | none =>
    have : (chgRest s v T' dt' R).points = none := by simp [chgRest, hp]
    rw [this]
    simp only []
    refine serialPoints_map hs rfl ?_ ?_ ?_ ?_ (fixOf_chg hs T' dt' R S) rfl rfl rfl rfl
    · simp only [chgRest, chgSetup]; ring
    · exact pairs_chg 0 _
    · exact fun x => lenFun_chg hs _ x
    · exact fun x => lenFun_chg hs _ x

theorem envOf_move (hs : 0 < s) (T' : Tools d κ ρ) {dt' : List (Fin d → ℝ) → List (Fin d → ℝ) × List (List ℕ)} {R : Generate.Rest d κ ρ}
    (hdt : ∀ p, dt' (p.map (chg s v)) = onMesh (chg s v) (R.dt p)) (S : Setup (Fin d → ℝ)) (m : ℝ) :
    EnvMove s v (Generate.envOf R S m) (Generate.envOf (chgRest s v T' dt' R) (chgSetup s v S) m) where
  dt := hdt
  fd := lenFun_chg hs _
  subs := by
    show List.Forall₂ _ R.subs (R.subs.map (lenFun s v))
    rw [List.forall₂_map_right_iff]
    exact List.forall₂_same.2 fun f _ => lenFun_chg hs f
  fh := lenFun_chg hs _
  h0 := rfl
  deltaT := rfl
  geps := by simp only [Generate.envOf, chgRest, chgSetup]; ring
  deps := by simp only [Generate.envOf, chgRest, chgSetup]; ring
  eps := rfl
  pfix := fixOf_chg hs T' dt' R S
  rank := rfl
  size := rfl
  size' := rfl
  maxIter := rfl
  opts := rfl

theorem prepare_chg (hs : 0 < s) {boxEval : List ℝ → (Fin d → ℝ) → ℝ} (hb : BoxAlong s v boxEval) (domain : DomainArg (Fin d → ℝ))
    (edge : SizeArg (Fin d → ℝ)) (kw : Kwargs) {R : Generate.Rest d κ ρ} (T' : Tools d κ ρ)
    {dt' : List (Fin d → ℝ) → List (Fin d → ℝ) × List (List ℕ)} (hdt : ∀ p, dt' (p.map (chg s v)) = onMesh (chg s v) (R.dt p)) :
    (∃ e, Generate.prepare boxEval domain edge kw R = .error e ∧
        Generate.prepare boxEval (chgDomain s v domain) (chgEdge s v edge) (chgKw s v kw) (chgRest s v T' dt' R) = .error e) ∨
      ∃ E E' p0, Generate.prepare boxEval domain edge kw R = .ok (E, p0) ∧ E.tools = R.tools ∧ E'.tools = T' ∧ EnvMove s v E E' ∧
        Generate.prepare boxEval (chgDomain s v domain) (chgEdge s v edge) (chgKw s v kw) (chgRest s v T' dt' R) = .ok (E', p0.map (chg s v)) := by
  have hm : maxIterOf (chgKw s v kw) = maxIterOf kw := by
    unfold maxIterOf
    rw [getOpt_chg kw "max_iter" (by simp)]
    cases getOpt defaults kw "max_iter" <;> rfl
  unfold Generate.prepare
  rw [genSetup_chg hs hb, hm]
  simp only [bind, Except.bind, pure, Except.pure]
  cases genSetup boxEval domain edge kw with
  | error e => exact .inl ⟨e, rfl, rfl⟩
  | ok S =>
    have hl : (chgSetup s v S).bbox.length = S.bbox.length := chgBox_length 0 _
    simp only [Except.map, hl]
    by_cases hd : S.bbox.length / 2 ≠ d
    · simp only [if_pos hd]; exact .inl ⟨_, rfl, rfl⟩
    simp only [if_neg hd, initial_chg hs]
    cases Generate.initial R S with
    | error e => exact .inl ⟨e, rfl, rfl⟩
    | ok p0 =>
      simp only [Except.map]
      cases maxIterOf kw with
      | error e => exact .inl ⟨e, rfl, rfl⟩
      | ok m =>
        simp only [List.isEmpty_map]
        by_cases hp : p0.isEmpty = true
        · simp only [if_pos hp]; exact .inl ⟨_, rfl, rfl⟩
        · simp only [if_neg hp]
          exact .inr ⟨_, _, _, rfl, rfl, rfl, envOf_move hs T' hdt S m, rfl⟩
/-- **C97.** `generate_mesh` on one process, called a second time with everything in other units and from another origin: domain, edge lengths, `bbox`,
`h0`, fixed points, user points and subdomains are those of the first call multiplied by `s > 0` and moved by `v`. After any number `n` of passes the two
calls agree: they have raised the same error, or are still running with the same (transformed) points, or have returned the same (transformed) mesh with
the same cells after the same number of triangulations.

Required of the environment: CGAL triangulates the transformed points like the points (`hdt`), numbering keys and solver correspond (`hT`, see
`C97_tools2` and `C97_tools3`), and the signed distance of a box scales (`hb`, see `C97_box2`, `C97_box3`). Required of the first call: its triangulations
are proper and it does not meet the guard `dgrad2 < deps`, which is not dimensionless (`C97_guard_false`). -/
theorem C97_units (hs : 0 < s) {boxEval : List ℝ → (Fin d → ℝ) → ℝ} (hb : BoxAlong s v boxEval) {domain : DomainArg (Fin d → ℝ)}
    {edge : SizeArg (Fin d → ℝ)} {kw : Kwargs} {R : Generate.Rest d κ ρ} {T' : Tools d κ ρ}
    {dt' : List (Fin d → ℝ) → List (Fin d → ℝ) × List (List ℕ)} (hok : ToolsOk R.tools) (hT : ToolsAlong (chg s v) R.tools T')
    (hdt : ∀ p, dt' (p.map (chg s v)) = onMesh (chg s v) (R.dt p))
    (hc : ∀ E p0 m st, Generate.prepare boxEval domain edge kw R = .ok (E, p0) → run E m (start p0) = .running st →
      DtOk (E.dt st.p) ∧ CalmPass s E st) (n : ℕ) :
    Generate.generateMesh boxEval (chgDomain s v domain) (chgEdge s v edge) (chgKw s v kw) (chgRest s v T' dt' R) n =
      onOutcome (chg s v) (Generate.generateMesh boxEval domain edge kw R n) := by
  unfold Generate.generateMesh
  rcases prepare_chg hs hb domain edge kw T' hdt with ⟨e, h1, h2⟩ | ⟨E, E', p0, h1, ht, ht', he, h2⟩
  · rw [h1, h2]; rfl
  · rw [h1, h2]
    exact run_map hs ⟨he, by rw [ht, ht']; exact hT⟩ (ht ▸ hok) n ⟨0, p0, 0⟩ fun m st hst => hc E p0 m st h1 hst

/-! ### The hypotheses hold of the real tools -/

/-- **C97 (boxes).** The rebuilt rectangle scales. -/
theorem C97_box2 (hs : 0 < s) (v : Fin 2 → ℝ) : BoxAlong s v box2 := by
  intro b x
  match b with
  | [x1, x2, y1, y2] =>
    have e0 : vOf v 0 = v 0 := rfl
    have e1 : vOf v 1 = v 1 := rfl
    simp only [chgBox, box2, Sdf.drectangle, chg, show 0 / 2 = 0 from rfl, show (0 + 1) / 2 = 0 from rfl, show (0 + 1 + 1) / 2 = 1 from rfl,
      show (0 + 1 + 1 + 1) / 2 = 1 from rfl, e0, e1]
    rw [mul_neg, mul_min_of_nonneg _ _ hs.le, mul_min_of_nonneg _ _ hs.le, mul_min_of_nonneg _ _ hs.le]
    congr 4 <;> ring
  | [] | [_] | [_, _] | [_, _, _] | _ :: _ :: _ :: _ :: _ :: _ => simp [chgBox, box2]

/-- **C97 (boxes).** The rebuilt cube scales. -/
theorem C97_box3 (hs : 0 < s) (v : Fin 3 → ℝ) : BoxAlong s v box3 := by
  intro b x
  match b with
  | [x1, x2, y1, y2, z1, z2] =>
    have e0 : vOf v 0 = v 0 := rfl
    have e1 : vOf v 1 = v 1 := rfl
    have e2 : vOf v 2 = v 2 := rfl
    simp only [chgBox, box3, Sdf.dblock, chg, show 0 / 2 = 0 from rfl, show (0 + 1) / 2 = 0 from rfl, show (0 + 1 + 1) / 2 = 1 from rfl,
      show (0 + 1 + 1 + 1) / 2 = 1 from rfl, show (0 + 1 + 1 + 1 + 1) / 2 = 2 from rfl, show (0 + 1 + 1 + 1 + 1 + 1) / 2 = 2 from rfl, e0, e1, e2]
    rw [mul_neg, mul_min_of_nonneg _ _ hs.le, mul_min_of_nonneg _ _ hs.le, mul_min_of_nonneg _ _ hs.le, mul_min_of_nonneg _ _ hs.le,
      mul_min_of_nonneg _ _ hs.le]
    congr 6 <;> ring
  | [] | [_] | [_, _] | [_, _, _] | [_, _, _, _] | [_, _, _, _, _] | _ :: _ :: _ :: _ :: _ :: _ :: _ :: _ => simp [chgBox, box3]

/-! Change of unit only (`v = 0`): `fix_mesh` rounds to multiples of a length proportional to the extent of the mesh, counted from the origin. -/

/-- `simp_qual` of one entity. -/
def rowQual (vs : List (Fin d → ℝ)) : ℝ := match vs with
  | a :: b :: c :: _ => Simplex.triQual a b c
  | _ => 0

theorem sqrt_scale (hs : 0 < s) (x : ℝ) : √(s ^ 2 * x) = s * √x := by
  rw [Real.sqrt_mul (sq_nonneg s), Real.sqrt_sq hs.le]

theorem triQual_chg (hs : 0 < s) (a b c : Fin d → ℝ) : Simplex.triQual (chg s v a) (chg s v b) (chg s v c) = Simplex.triQual a b c := by
  have hl : ∀ x y : Fin d → ℝ, Simplex.length (fun i => chg s v x i - chg s v y i) = s * Simplex.length fun i => x i - y i := by
    intro x y
    unfold Simplex.length
    rw [← sqrt_scale hs, Finset.mul_sum]
    congr 1
    apply Finset.sum_congr rfl
    intro i _
    simp only [chg]; ring
  unfold Simplex.triQual
  simp only [hl]
  set A := Simplex.length fun i => b i - a i
  set B := Simplex.length fun i => c i - a i
  set C := Simplex.length fun i => c i - b i
  have h1 : (s * B + s * C - s * A) * (s * C + s * A - s * B) * (s * A + s * B - s * C) / (s * A + s * B + s * C) =
      s ^ 2 * ((B + C - A) * (C + A - B) * (A + B - C) / (A + B + C)) := by
    rw [show (s * B + s * C - s * A) * (s * C + s * A - s * B) * (s * A + s * B - s * C) = s * (s ^ 2 * ((B + C - A) * (C + A - B) * (A + B - C))) by ring,
      show s * A + s * B + s * C = s * (A + B + C) by ring, mul_div_mul_left _ _ hs.ne', mul_div_assoc]
  have h2 : (s * A + s * B + s * C) * (s * B + s * C - s * A) * (s * C + s * A - s * B) * (s * A + s * B - s * C) =
      s ^ 2 * (s ^ 2 * ((A + B + C) * (B + C - A) * (C + A - B) * (A + B - C))) := by ring
  rw [h1, h2, sqrt_scale hs, sqrt_scale hs, sqrt_scale hs]
  set r := √((B + C - A) * (C + A - B) * (A + B - C) / (A + B + C))
  set q := √((A + B + C) * (B + C - A) * (C + A - B) * (A + B - C))
  have h3 : s * A * (s * B) * (s * C) / (s * (s * q)) = s * (A * B * C / q) := by
    rw [show s * A * (s * B) * (s * C) = s * (s * (s * (A * B * C))) by ring, mul_div_mul_left _ _ hs.ne', mul_div_mul_left _ _ hs.ne', mul_div_assoc]
  rw [h3, show 2 * (1 / 2 * (s * r)) = s * (2 * (1 / 2 * r)) by ring, mul_div_mul_left _ _ hs.ne']

theorem rowQual_chg (hs : 0 < s) (vs : List (Fin d → ℝ)) : rowQual (vs.map (chg s v)) = rowQual vs := by
  match vs with
  | [] | [_] | [_, _] => rfl
  | a :: b :: c :: _ => exact triQual_chg hs a b c

theorem rowVol2_chg (hs : 0 < s) (v : Fin 2 → ℝ) (vs : List (Fin 2 → ℝ)) : rowVol2 (vs.map (chg s v)) < 0 ↔ rowVol2 vs < 0 := by
  match vs with
  | [] | [_] | [_, _] | _ :: _ :: _ :: _ :: _ => exact Iff.rfl
  | [a, b, c] =>
    have : vol2 (chg s v a) (chg s v b) (chg s v c) = s ^ 2 * vol2 a b c := by simp only [vol2, chg]; ring
    simp only [List.map_cons, List.map_nil, rowVol2, this]
    constructor
    · intro h; by_contra hn; exact absurd (mul_nonneg (sq_nonneg s) (not_lt.1 hn)) (not_le.2 h)
    · exact mul_neg_of_pos_of_neg (by positivity)

theorem rowVol3_chg (hs : 0 < s) (v : Fin 3 → ℝ) (vs : List (Fin 3 → ℝ)) : rowVol3 (vs.map (chg s v)) < 0 ↔ rowVol3 vs < 0 := by
  match vs with
  | [] | [_] | [_, _] | [_, _, _] | _ :: _ :: _ :: _ :: _ :: _ => exact Iff.rfl
  | [a, b, c, e] =>
    have : vol3 (chg s v a) (chg s v b) (chg s v c) (chg s v e) = s ^ 3 * vol3 a b c e := by
      simp only [vol3, cross, chg, Matrix.cons_val_zero, Matrix.cons_val_one, Matrix.cons_val_two, Matrix.tail_cons, Matrix.head_cons]; ring
    simp only [List.map_cons, List.map_nil, rowVol3, this]
    constructor
    · intro h; by_contra hn; exact absurd (mul_nonneg (by positivity) (not_lt.1 hn)) (not_le.2 h)
    · exact mul_neg_of_pos_of_neg (by positivity)

theorem snapLen_chg (hs : 0 < s) (ptol : ℝ) (p0 : Fin d → ℝ) (ps : List (Fin d → ℝ)) :
    snapLen ptol (chg s v p0) (ps.map (chg s v)) = s * snapLen ptol p0 ps := by
  have hmax : ∀ (i : Fin d) (ps : List (Fin d → ℝ)) (m : ℝ), (ps.map (chg s v)).foldl (fun m q => max m (q i)) (s * m + v i) =
      s * ps.foldl (fun m q => max m (q i)) m + v i := by
    intro i ps
    induction ps with
    | nil => intro m; rfl
    | cons q ps ih =>
      intro m
      simp only [List.map_cons, List.foldl_cons]
      rw [← ih, mul_max_of_nonneg _ _ hs.le, ← max_add_add_right]
      rfl
  have hmin : ∀ (i : Fin d) (ps : List (Fin d → ℝ)) (m : ℝ), (ps.map (chg s v)).foldl (fun m q => min m (q i)) (s * m + v i) =
      s * ps.foldl (fun m q => min m (q i)) m + v i := by
    intro i ps
    induction ps with
    | nil => intro m; rfl
    | cons q ps ih =>
      intro m
      simp only [List.map_cons, List.foldl_cons]
      rw [← ih, mul_min_of_nonneg _ _ hs.le, ← min_add_add_right]
      rfl
  have hcol : ∀ i, colMax (chg s v p0) (ps.map (chg s v)) i - colMin (chg s v p0) (ps.map (chg s v)) i = s * (colMax p0 ps i - colMin p0 ps i) := by
    intro i
    have h1 : colMax (chg s v p0) (ps.map (chg s v)) i = s * colMax p0 ps i + v i := hmax i ps (p0 i)
    have h2 : colMin (chg s v p0) (ps.map (chg s v)) i = s * colMin p0 ps i + v i := hmin i ps (p0 i)
    rw [h1, h2]; ring
  have hfold : ∀ (l : List ℝ) (m : ℝ), (l.map fun x => s * x).foldl max (s * m) = s * l.foldl max m := by
    intro l
    induction l with
    | nil => intro m; rfl
    | cons a l ih =>
      intro m
      simp only [List.map_cons, List.foldl_cons]
      rw [← mul_max_of_nonneg _ _ hs.le, ih]
  unfold snapLen
  simp only [hcol]
  have : (List.ofFn fun i => s * (colMax p0 ps i - colMin p0 ps i)) = (List.ofFn fun i => colMax p0 ps i - colMin p0 ps i).map fun x => s * x := by
    rw [List.map_ofFn]; rfl
  rw [this]
  have h0 := hfold (List.ofFn fun i => colMax p0 ps i - colMin p0 ps i) 0
  rw [mul_zero] at h0
  rw [h0, mul_assoc]

theorem snapPt_chg (hs : 0 < s) (σ : ℝ) (q : Fin d → ℝ) : snapPt (s * σ) (chg s 0 q) = chg s 0 (snapPt σ q) := by
  funext i
  simp only [snapPt, chg, Pi.zero_apply, add_zero]
  rw [mul_div_mul_left _ _ hs.ne']
  ring

theorem key_chg (hs : 0 < s) (enc : (Fin d → ℝ) → κ) (ptol : ℝ) (p : List (Fin d → ℝ)) (q : Fin d → ℝ) :
    keyOf (fun y => enc (unchg s 0 y)) ptol (p.map (chg s 0)) (chg s 0 q) = keyOf enc ptol p q := by
  cases p with
  | nil => simp only [List.map_nil, keyOf, unchg_chg hs]
  | cons p0 ps => simp only [List.map_cons, keyOf, snapLen_chg hs, snapPt_chg hs, unchg_chg hs]

theorem linter_map {P Q : Type} {φ : P → Q} {inside : P → List P → Bool} {inside' : Q → List Q → Bool} {cent : List P → P} {cent' : List Q → Q}
    {key key2 : P → κ} {key' key2' : Q → κ} (rk : List ℕ → ρ) {vol qual : List P → ℝ} {vol' qual' : List Q → ℝ} (srt : List (ℕ × ℕ) → List (ℕ × ℕ))
    (hi : ∀ c vs, inside' (φ c) (vs.map φ) = inside c vs) (hcent : ∀ vs, cent' (vs.map φ) = φ (cent vs))
    (hk : ∀ q, key' (φ q) = key q) (hk2 : ∀ q, key2' (φ q) = key2 q) (hv : ∀ vs, vol' (vs.map φ) < 0 ↔ vol vs < 0)
    (hq : ∀ vs, qual' (vs.map φ) = qual vs) (width : ℕ) (p : List P) (t : List (List ℕ)) (dim : ℕ) (mq : ℝ) :
    Linter.linter inside' cent' qual' vol' key' key2' rk srt width (p.map φ) t dim mq =
      (Linter.linter inside cent qual vol key key2 rk srt width p t dim mq).map fun x => (x.1.map φ, x.2) := by
  have hquals : ∀ (p : List P) t, Linter.quals qual' (p.map φ) t = Linter.quals qual p t := by
    intro p t
    unfold Linter.quals
    simp only [quals_map hq]
  have hover : Linter.doAnyOverlap inside' cent' srt (p.map φ) t dim = Linter.doAnyOverlap inside cent srt p t dim := by
    unfold Linter.doAnyOverlap
    have h1 : (t.mapM fun r => (do return cent' (← Np.take (p.map φ) r) : Except String Q)) =
        (t.mapM fun r => (do return cent (← Np.take p r) : Except String P)).map (List.map φ) := by
      rw [← mapM_map_except]
      refine mapM_congr fun r _ => ?_
      rw [take_map]
      cases Np.take p r with
      | error e => rfl
      | ok vs => simp only [Except.map, bind, Except.bind, pure, Except.pure, hcent]
    simp only []
    rw [h1]
    generalize (t.mapM fun r => (do return cent (← Np.take p r) : Except String P)) = cs
    cases cs with
    | error e => rfl
    | ok cents =>
      simp only [Except.map, bind, Except.bind, pure, Except.pure]
      have h2 : (t.zip (cents.map φ)).zipIdx = ((t.zip cents).zipIdx).map fun x => ((x.1.1, φ x.1.2), x.2) := by
        rw [List.zip_map_right, List.zipIdx_map]; rfl
      rw [h2, List.mapM_map]
      have h3 : (Linter.hits inside' (vertexToEntities srt t dim) (p.map φ) t ∘ fun x => ((x.1.1, φ x.1.2), x.2)) =
          Linter.hits inside (vertexToEntities srt t dim) p t := by
        funext x
        simp only [Function.comp, Linter.hits]
        cases Linter.oneRing (vertexToEntities srt t dim) x.1.1 with
        | error e => rfl
        | ok neis =>
          have : Linter.hit inside' (p.map φ) t x.2 (φ x.1.2) = Linter.hit inside p t x.2 x.1.2 := by
            funext ele
            unfold Linter.hit
            split
            · rfl
            cases item t ele with
            | error e => rfl
            | ok row =>
              simp only [bind, Except.bind, take_map]
              cases Np.take p row with
              | error e => rfl
              | ok vs => simp only [Except.map, hi]
          simp only [bind, Except.bind, this]
      rw [h3]
  unfold Linter.linter
  rw [hquals, hover]
  simp only [bind, Except.bind, pure, Except.pure]
  split
  · rfl
  split
  · rfl
  split
  · rfl
  rw [fixMesh_map rk hk hv]
  cases fixMesh key rk vol p _ true true with
  | error e => rfl
  | ok x =>
    obtain ⟨p1, t1, jx⟩ := x
    simp only [Except.map]
    by_cases hd : dim = 2
    · simp only [if_pos hd]
      rw [deleteBoundaryEntities_map rk srt hk2 hv hq]
      cases deleteBoundaryEntities key2 rk vol qual srt p1 t1 2 mq with
      | error e => rfl
      | ok y =>
        obtain ⟨p2, t2⟩ := y
        simp only [Except.map, List.length_map]
        cases isManifold rk p2.length width t2 2 with
        | error e => rfl
        | ok b =>
          simp only [hquals]
          cases Linter.quals qual p2 t2 with
          | error e => rfl
          | ok q => simp only []; split <;> rfl
    · simp only [if_neg hd, hquals]
      cases Linter.quals qual p1 t1 with
      | error e => rfl
      | ok q => simp only []; split <;> rfl


theorem centroid_scale (n : ℕ) (vs : List (Fin d → ℝ)) : Simplex.centroid (vs.map (chg s 0)) n = chg s 0 (Simplex.centroid vs n) := by
  funext i
  simp only [Simplex.centroid, chg, List.map_map, Pi.zero_apply, add_zero]
  have : (vs.map ((fun q : Fin d → ℝ => q i) ∘ fun (x : Fin d → ℝ) k => s * x k + (0 : Fin d → ℝ) k)).sum = s * (vs.map fun q => q i).sum := by
    rw [← List.sum_map_mul_left]
    congr 1
    apply List.map_congr_left
    intro q _
    simp
  have h2 : (vs.map ((fun q : Fin d → ℝ => q i) ∘ chg s 0)).sum = s * (vs.map fun q => q i).sum := this
  rw [h2, mul_div_assoc]

theorem inside2_chg (hs : 0 < s) (v c : Fin 2 → ℝ) (vs : List (Fin 2 → ℝ)) : Linter.inside2 (chg s v c) (vs.map (chg s v)) = Linter.inside2 c vs := by
  match vs with
  | [] | [_] | [_, _] | _ :: _ :: _ :: _ :: _ => rfl
  | [a, b, e] =>
    have hd : ∀ a b e : Fin 2 → ℝ, Simplex.den2 (chg s v a) (chg s v b) (chg s v e) = s ^ 2 * Simplex.den2 a b e := by
      intro a b e; simp only [Simplex.den2, chg]; ring
    have hn : ∀ a b e f : Fin 2 → ℝ, (chg s v a 1 - chg s v b 1) * (chg s v e 0 - chg s v f 0) + (chg s v f 0 - chg s v a 0) * (chg s v e 1 - chg s v f 1) =
        s ^ 2 * ((a 1 - b 1) * (e 0 - f 0) + (f 0 - a 0) * (e 1 - f 1)) := by
      intro a b e f; simp only [chg]; ring
    have hs2 : s ^ 2 ≠ 0 := by positivity
    have h1 : (chg s v b 1 - chg s v e 1) * (chg s v c 0 - chg s v e 0) + (chg s v e 0 - chg s v b 0) * (chg s v c 1 - chg s v e 1) =
        s ^ 2 * ((b 1 - e 1) * (c 0 - e 0) + (e 0 - b 0) * (c 1 - e 1)) := by simp only [chg]; ring
    have h2 : (chg s v e 1 - chg s v a 1) * (chg s v c 0 - chg s v e 0) + (chg s v a 0 - chg s v e 0) * (chg s v c 1 - chg s v e 1) =
        s ^ 2 * ((e 1 - a 1) * (c 0 - e 0) + (a 0 - e 0) * (c 1 - e 1)) := by simp only [chg]; ring
    simp only [List.map_cons, List.map_nil, Linter.inside2, Simplex.vertexInEntity2]
    rw [h1, h2, hd, mul_div_mul_left _ _ hs2, mul_div_mul_left _ _ hs2]
    simp only [mul_eq_zero, hs2, false_or]

theorem sgn_chg (hs : 0 < s) (v a b c e : Fin 3 → ℝ) : Simplex.sgn (chg s v a) (chg s v b) (chg s v c) (chg s v e) = Simplex.sgn a b c e := by
  have : Simplex.calcDet4 (Simplex.homog (chg s v a) (chg s v b) (chg s v c) (chg s v e)) = s ^ 3 * Simplex.calcDet4 (Simplex.homog a b c e) := by
    simp [Simplex.calcDet4, Simplex.det4, Simplex.rowMajor, Fin.ofNat, Simplex.homog, chg]
    ring
  have hs3 : (0 : ℝ) < s ^ 3 := by positivity
  unfold Simplex.sgn
  rw [this, sign_mul, sign_pos hs3, one_mul]

theorem inside3_chg (hs : 0 < s) (v c : Fin 3 → ℝ) (vs : List (Fin 3 → ℝ)) : Linter.inside3 (chg s v c) (vs.map (chg s v)) = Linter.inside3 c vs := by
  match vs with
  | [] | [_] | [_, _] | [_, _, _] | _ :: _ :: _ :: _ :: _ :: _ => rfl
  | [a, b, e, f] =>
    simp only [List.map_cons, List.map_nil, Linter.inside3, Simplex.vertexInEntity3, sgn_chg hs]

/-- The linear solver gives in the other units the same answer: a solution of `A x = b` times `s` solves `A x = s b`. -/
def SolveAlong (s : ℝ) (solve solve' : (n : ℕ) → Matrix (Fin n) (Fin n) ℝ → Matrix (Fin n) (Fin d) ℝ → Matrix (Fin n) (Fin d) ℝ) : Prop :=
  ∀ n A b, solve' n A (fun i k => s * b i k) = fun i k => s * solve n A b i k

theorem laplacianFixed_chg {T T' : Tools d κ ρ} (hrk : T'.rk = T.rk) (hso : SolveAlong s T.solve T'.solve) (p : List (Fin d → ℝ)) (t : List (List ℕ)) :
    laplacianFixed T' (p.map (chg s 0)) t = (laplacianFixed T p t).map (onMesh (chg s 0)) := by
  have key : ∀ (n : ℕ) (q : Fin n → Fin d → ℝ), (do
      let (A, b) ← Laplace.assemble T'.rk (fun i => chg s 0 (q i)) t
      return (List.ofFn fun i => T'.solve n A b i, t) : Except String (List (Fin d → ℝ) × List (List ℕ))) =
      (do
        let (A, b) ← Laplace.assemble T.rk q t
        return (List.ofFn fun i => T.solve n A b i, t) : Except String (List (Fin d → ℝ) × List (List ℕ))).map (onMesh (chg s 0)) := by
    intro n q
    unfold Laplace.assemble
    rw [hrk]
    simp only [bind, Except.bind, pure, Except.pure]
    cases t.mapM Laplace.stiff with
    | error e => rfl
    | ok parts =>
      simp only []
      cases Laplace.cooCheck n parts.flatten with
      | error e => rfl
      | ok _ =>
        simp only []
        cases getBoundaryVertices T.rk t 2 with
        | error e => rfl
        | ok bnd =>
          have hr : Laplace.rhsOf bnd (fun i => chg s 0 (q i)) = fun i k => s * Laplace.rhsOf bnd q i k := by
            funext i k
            simp only [Laplace.rhsOf, Matrix.of_apply, chg, Pi.zero_apply, add_zero]
            split <;> simp
          simp only [hr, hso n, Except.map, onMesh]
          rw [List.map_ofFn]
          congr 3
          funext i k
          simp [chg]
  have hget : (fun i : Fin (p.map (chg s 0)).length => (p.map (chg s 0)).get i) = fun i => chg s 0 (p.get (Fin.cast (by simp) i)) := by
    funext i; simp
  unfold laplacianFixed
  have h2 := key p.length fun i => p.get i
  rw [← h2]
  have : ∀ (m : ℕ) (hm : m = p.length) (g : Fin m → Fin d → ℝ), (g = fun i => chg s 0 (p.get (Fin.cast hm i))) → (do
      let (A, b) ← Laplace.assemble T'.rk g t
      return (List.ofFn fun i => T'.solve m A b i, t) : Except String (List (Fin d → ℝ) × List (List ℕ))) = (do
      let (A, b) ← Laplace.assemble T'.rk (fun i => chg s 0 (p.get i)) t
      return (List.ofFn fun i => T'.solve p.length A b i, t)) := by
    intro m hm g hg
    subst hm
    subst hg
    rfl
  exact this _ (by simp) _ hget

/-- The tools of a two-dimensional run: the real volume, quality, overlap test and linter with its default `min_qual`; the byte encodings, the sort, the
solver and `ptol` are left open. -/
def tools2 (enc key2 : (Fin 2 → ℝ) → κ) (rk : List ℕ → ρ) (srt : List (ℕ × ℕ) → List (ℕ × ℕ)) (ptol : ℝ)
    (solve : (n : ℕ) → Matrix (Fin n) (Fin n) ℝ → Matrix (Fin n) (Fin 2) ℝ → Matrix (Fin n) (Fin 2) ℝ) : Tools 2 κ ρ where
  enc := enc
  rk := rk
  vol := rowVol2
  qual := rowQual
  srt := srt
  ptol := ptol
  solve := solve
  lint p t := Linter.linter Linter.inside2 (Simplex.centroid · 2) rowQual rowVol2 (keyOf enc ptol p) key2 rk srt 2 p t 2 0.10
  aggregate p t := .ok (p, t)

/-- The tools of a three-dimensional run. -/
def tools3 (enc key2 : (Fin 3 → ℝ) → κ) (rk : List ℕ → ρ) (srt : List (ℕ × ℕ) → List (ℕ × ℕ)) (ptol : ℝ)
    (solve : (n : ℕ) → Matrix (Fin n) (Fin n) ℝ → Matrix (Fin n) (Fin 3) ℝ → Matrix (Fin n) (Fin 3) ℝ) : Tools 3 κ ρ where
  enc := enc
  rk := rk
  vol := rowVol3
  qual := rowQual
  srt := srt
  ptol := ptol
  solve := solve
  lint p t := Linter.linter Linter.inside3 (Simplex.centroid · 3) rowQual rowVol3 (keyOf enc ptol p) key2 rk srt 3 p t 3 0.10
  aggregate p t := .ok (p, t)

/-- **C97 (tools).** In two dimensions the volume test, the quality, the overlap test, `fix_mesh`, the smoother and the linter do not depend on the unit of
length: the hypotheses of `C97_units` about the tools hold for `v = 0`, if the byte strings of the second call number its points as the first call does. -/
theorem C97_tools2 (hs : 0 < s) {enc key2 : (Fin 2 → ℝ) → κ} {rk : List ℕ → ρ} (hrk : Function.Injective rk) {srt : List (ℕ × ℕ) → List (ℕ × ℕ)} {ptol : ℝ}
    {solve solve' : (n : ℕ) → Matrix (Fin n) (Fin n) ℝ → Matrix (Fin n) (Fin 2) ℝ → Matrix (Fin n) (Fin 2) ℝ} (hso : SolveAlong s solve solve') :
    ToolsOk (tools2 enc key2 rk srt ptol solve) ∧
      ToolsAlong (chg s 0) (tools2 enc key2 rk srt ptol solve) (tools2 (fun y => enc (unchg s 0 y)) (fun y => key2 (unchg s 0 y)) rk srt ptol solve') :=
  ⟨⟨hrk, rowVol2_swap, fun _ _ _ _ h => ⟨_, _, _, _, _, _, _, _, h⟩⟩,
    { key := fun p q => key_chg hs enc ptol p q
      rk := rfl
      vol := rowVol2_chg hs 0
      qual := rowQual_chg hs
      srt := rfl
      lap := fun p t => laplacianFixed_chg (T := tools2 enc key2 rk srt ptol solve) (T' := tools2 (fun y => enc (unchg s 0 y)) (fun y => key2 (unchg s 0 y)) rk srt ptol solve') rfl hso p t
      lint := fun p t => linter_map rk srt (inside2_chg hs 0) (centroid_scale 2) (key_chg hs enc ptol p) (fun q => by simp only [unchg_chg hs])
        (rowVol2_chg hs 0) (rowQual_chg hs) 2 p t 2 0.10 }⟩

/-- **C97 (tools).** The same in three dimensions. -/
theorem C97_tools3 (hs : 0 < s) {enc key2 : (Fin 3 → ℝ) → κ} {rk : List ℕ → ρ} (hrk : Function.Injective rk) {srt : List (ℕ × ℕ) → List (ℕ × ℕ)} {ptol : ℝ}
    {solve solve' : (n : ℕ) → Matrix (Fin n) (Fin n) ℝ → Matrix (Fin n) (Fin 3) ℝ → Matrix (Fin n) (Fin 3) ℝ} (hso : SolveAlong s solve solve') :
    ToolsOk (tools3 enc key2 rk srt ptol solve) ∧
      ToolsAlong (chg s 0) (tools3 enc key2 rk srt ptol solve) (tools3 (fun y => enc (unchg s 0 y)) (fun y => key2 (unchg s 0 y)) rk srt ptol solve') :=
  ⟨⟨hrk, rowVol3_swap, fun _ _ _ _ h => ⟨_, _, _, _, _, _, _, _, h⟩⟩,
    { key := fun p q => key_chg hs enc ptol p q
      rk := rfl
      vol := rowVol3_chg hs 0
      qual := rowQual_chg hs
      srt := rfl
      lap := fun p t => laplacianFixed_chg (T := tools3 enc key2 rk srt ptol solve) (T' := tools3 (fun y => enc (unchg s 0 y)) (fun y => key2 (unchg s 0 y)) rk srt ptol solve') rfl hso p t
      lint := fun p t => linter_map rk srt (inside3_chg hs 0) (centroid_scale 3) (key_chg hs enc ptol p) (fun q => by simp only [unchg_chg hs])
        (rowVol3_chg hs 0) (rowQual_chg hs) 3 p t 3 0.10 }⟩

/-! ### The guard -/

/-- **C97 is false without the condition on the guard.** A point at `x = 1`, one length unit outside the domain `x ≤ 0`, whose signed distance function has
gradient 1/100 (a legitimate level set, though not a distance): with `deps = 2⁻²⁶` the point is put back on the boundary exactly; with all lengths multiplied by
10⁶ (kilometres to millimetres), the projection leaves it outside. -/
theorem C97_guard_false : ∃ f : (Fin 1 → ℝ) → ℝ, ∃ p : List (Fin 1 → ℝ),
    projectBack f (1 / 2 ^ 26) 1 0 p = [0] ∧
    projectBack (lenFun 1000000 0 f) (1000000 * (1 / 2 ^ 26)) 1000000 0 (p.map (chg 1000000 0)) ≠ (projectBack f (1 / 2 ^ 26) 1 0 p).map (chg 1000000 0) ∧
    ∀ q ∈ projectBack (lenFun 1000000 0 f) (1000000 * (1 / 2 ^ 26)) 1000000 0 (p.map (chg 1000000 0)), 0 < lenFun 1000000 0 f q := by
  have hg : ∀ i : Fin 1, dgrad (fun x : Fin 1 → ℝ => x 0 / 100) (1 / 2 ^ 26) (fun _ => 1) i = 1 / 100 := by
    intro i; fin_cases i; simp only [dgrad, bump]; norm_num
  have hg' : ∀ i : Fin 1, dgrad (lenFun 1000000 0 fun x : Fin 1 → ℝ => x 0 / 100) (1000000 * (1 / 2 ^ 26)) (chg 1000000 0 fun _ => 1) i = 1 / 100 := by
    intro i; fin_cases i; simp only [dgrad, bump, lenFun, unchg, chg]; norm_num
  have h1 : projectBack (fun x : Fin 1 → ℝ => x 0 / 100) (1 / 2 ^ 26) 1 0 [fun _ => 1] = [0] := by
    simp only [projectBack, List.map_cons, List.map_nil, selected]
    rw [if_pos (by norm_num)]
    congr 1
    funext i
    fin_cases i
    simp only [newton, dgrad2, hg, Fin.sum_univ_one]
    norm_num
  have h2 : projectBack (lenFun 1000000 0 fun x : Fin 1 → ℝ => x 0 / 100) (1000000 * (1 / 2 ^ 26)) 1000000 0 [chg 1000000 0 fun _ => 1] =
      [fun _ => 1000000 - 100 * 2 ^ 26 / 1000000] := by
    simp only [projectBack, List.map_cons, List.map_nil, selected]
    rw [if_pos (by simp only [lenFun, unchg, chg]; norm_num)]
    congr 1
    funext i
    fin_cases i
    simp only [newton, dgrad2, hg', Fin.sum_univ_one]
    simp only [lenFun, unchg, chg]
    norm_num
  refine ⟨fun x => x 0 / 100, [fun _ => 1], h1, ?_, ?_⟩
  · rw [h1, List.map_cons, List.map_nil, h2]
    intro h
    have := congrFun (List.cons.inj h).1 0
    simp only [chg] at this
    norm_num at this
  · rw [List.map_cons, List.map_nil, h2]
    intro q hq
    rw [List.mem_singleton.1 hq]
    simp only [lenFun, unchg]
    norm_num

/-! ### A call that meets the hypotheses -/

theorem calm_half {s : ℝ} (h2 : s / 2 ^ 26 ≤ 1) (x : Fin 3 → ℝ) : Calm s (fun x : Fin 3 → ℝ => x 0) (1 / 2 ^ 26) x := by
  have hg : ∀ i : Fin 3, dgrad (fun x : Fin 3 → ℝ => x 0) (1 / 2 ^ 26) x i = if i = 0 then 1 else 0 := by
    intro i; fin_cases i <;> simp [dgrad, bump]
  have : ∑ i, dgrad (fun x : Fin 3 → ℝ => x 0) (1 / 2 ^ 26) x i ^ 2 = 1 := by simp only [hg]; simp
  refine .inr (.inr ?_)
  rw [this]
  constructor
  · norm_num
  · linarith [mul_one_div s (2 ^ 26)]

theorem calmImprove_all {f : (Fin d → ℝ) → ℝ} {deps : ℝ} (h : ∀ x, Calm s f deps x) (bid : List ℕ) : ∀ (n k : ℕ) (alpha : ℝ) (p : List (Fin d → ℝ)),
    CalmImprove s f deps bid n k alpha p
  | 0, _, _, _ => trivial
  | n + 1, k, alpha, p => by
    unfold CalmImprove
    exact ⟨fun _ _ x _ => h x, fun q _ => calmImprove_all h bid n _ _ q⟩

theorem calmAll_all {deps h0 : ℝ} : ∀ {ls : List ((Fin d → ℝ) → ℝ)} (_ : ∀ f ∈ ls, ∀ x, Calm s f deps x) (k : ℕ) (p : List (Fin d → ℝ)),
    CalmAll s deps h0 k ls p
  | [], _, _, _ => trivial
  | f :: ls, h, k, p => ⟨fun x _ _ => h f (by simp) x, calmAll_all (fun g hg => h g (by simp [hg])) (k + 1) _⟩

/-- The guard stays idle in every pass, if it is idle everywhere. -/
theorem calmPass_all {E : Env d κ ρ} (h : ∀ f ∈ E.fd :: E.subs, ∀ x, Calm s f E.deps x) (st : State d) : CalmPass s E st := by
  intro p t ifix inv r _
  split
  · exact fun p1 t1 bid _ _ => calmImprove_all (h E.fd (by simp)) bid 5 0 1 p1
  · exact fun F _ => calmAll_all h 0 _

/-- A single pass ends or raises. -/
theorem not_running {E : Env d κ ρ} (h : E.maxIter = 1) {p0 : List (Fin d → ℝ)} {m : ℕ} {st : State d} (hr : run E m (start p0) = .running st) : st = start p0 := by
  cases m with
  | zero => simp only [run, Outcome.running.injEq] at hr; exact hr.symm
  | succ m =>
    exfalso
    unfold run at hr
    have : ∀ st', step E (start p0) ≠ .running st' := by
      intro st' hs
      unfold step at hs
      split at hs
      · simp at hs
      · rw [if_pos (by simp [start, h])] at hs
        split at hs <;> simp at hs
    split at hr
    · exact this _ ‹_›
    · rename_i o ho; exact ho _ hr

/-- The call of `C82_call` in the half space `x ≤ 0`, with the real tools, once in kilometres and once in metres: the same mesh. -/
example (n : ℕ) :
    let T := tools3 (fun q => [q 0, q 1, q 2]) (fun q => [q 0, q 1, q 2]) (id : List ℕ → List ℕ) id 2e-13 fun _ _ b => b
    let T' := tools3 (fun q => [q 0 / 1000, q 1 / 1000, q 2 / 1000]) (fun q => [q 0 / 1000, q 1 / 1000, q 2 / 1000]) (id : List ℕ → List ℕ) id 2e-13 fun _ _ b => b
    Generate.generateMesh box3 (.geometry (fun x => x 0) [.flt (-10000), .flt 10000, .flt (-10000), .flt 10000, .flt (-10000), .flt 10000] none) (.scalar 1000)
        [("max_iter", .num (.int 1))]
        ⟨none, some (capTet.map (chg 1000 0)), [], 1, 0.1, 0.1, false, ⟨true, true, true⟩, fun _ => 0, T', fun p => (p, [[0, 1, 2, 3]]), 1 / 2 ^ 52, 1 / 2 ^ 26⟩ n =
      onOutcome (chg 1000 0) (Generate.generateMesh box3
        (.geometry (fun x => x 0) [.flt (-10), .flt 10, .flt (-10), .flt 10, .flt (-10), .flt 10] none) (.scalar 1) [("max_iter", .num (.int 1))]
        ⟨none, some capTet, [], 1, 0.1, 0.1, false, ⟨true, true, true⟩, fun _ => 0, T, fun p => (p, [[0, 1, 2, 3]]), 1 / 2 ^ 52, 1 / 2 ^ 26⟩ n) := by
  intro T T'
  have hs : (0 : ℝ) < 1000 := by norm_num
  have hT := C97_tools3 (κ := List ℝ) (ρ := List ℕ) hs (enc := fun q => [q 0, q 1, q 2]) (key2 := fun q => [q 0, q 1, q 2]) (rk := id) (fun _ _ h => h) (srt := id)
    (ptol := 2e-13) (solve := fun _ _ b => b) (solve' := fun _ _ b => b) (fun _ _ _ => rfl)
  have hun : ∀ (y : Fin 3 → ℝ) k, unchg 1000 0 y k = y k / 1000 := fun y k => by simp [unchg]
  simp only [hun] at hT
  have h := C97_units (v := (0 : Fin 3 → ℝ)) hs (C97_box3 hs 0) (domain := .geometry (fun x => x 0) [.flt (-10), .flt 10, .flt (-10), .flt 10, .flt (-10), .flt 10] none)
    (edge := .scalar 1) (kw := [("max_iter", .num (.int 1))])
    (R := ⟨none, some capTet, [], 1, 0.1, 0.1, false, ⟨true, true, true⟩, fun _ => 0, T, fun p => (p, [[0, 1, 2, 3]]), 1 / 2 ^ 52, 1 / 2 ^ 26⟩)
    (T' := T') (dt' := fun p => (p, [[0, 1, 2, 3]])) hT.1 hT.2 (fun p => rfl) ?_ n
  · have hd : chgDomain (1000 : ℝ) (0 : Fin 3 → ℝ) (.geometry (fun x => x 0) [.flt (-10), .flt 10, .flt (-10), .flt 10, .flt (-10), .flt 10] none) =
        .geometry (fun x => x 0) [.flt (-10000), .flt 10000, .flt (-10000), .flt 10000, .flt (-10000), .flt 10000] none := by
      have hl : lenFun (1000 : ℝ) (0 : Fin 3 → ℝ) (fun x => x 0) = fun x => x 0 := by
        funext y; simp only [lenFun, hun]; ring
      simp only [chgDomain, hl, chgNums, vOf, Option.map_none]
      norm_num
    have he : chgEdge (1000 : ℝ) (0 : Fin 3 → ℝ) (.scalar 1) = .scalar 1000 := by simp [chgEdge]
    have hk : chgKw (1000 : ℝ) (0 : Fin 3 → ℝ) [("max_iter", .num (.int 1))] = [("max_iter", .num (.int 1))] := by
      simp [chgKw, chgOpt]
    rw [hd, he, hk] at h
    exact h
  · intro E p0 m st hp hr
    have hS : Gen.genSetup (P := Fin 3 → ℝ) box3 (.geometry (fun x => x 0) [.flt (-10), .flt 10, .flt (-10), .flt 10, .flt (-10), .flt 10] none) (.scalar 1)
        [("max_iter", .num (.int 1))] = .ok ⟨fun x => x 0, fun _ => 1, [-10, 10, -10, 10, -10, 10], 1, none, true, (true, false)⟩ := by
      simp [Gen.genSetup, Gen.parseKwargs, Gen.knownNames, Gen.getOpt, Gen.defaults, Gen.asNum, Gen.Num.val, Gen.selectVerbosity, Gen.unpackDomain,
        Gen.unpackSizing, Gen.checkBbox, Gen.checkFloats, Gen.mergeBbox, Gen.Rebuild, bind, Except.bind, pure, Except.pure, List.lookup]
    have hm : Gen.maxIterOf [("max_iter", .num (.int 1))] = .ok 1 := by
      simp [Gen.maxIterOf, Gen.getOpt, Gen.asNum, Gen.Num.val, bind, Except.bind, pure, Except.pure]
    simp only [Generate.prepare, hS, Generate.initial, hm, bind, Except.bind, pure, Except.pure] at hp
    simp [capTet] at hp
    obtain ⟨rfl, rfl⟩ := hp
    have hst := not_running rfl hr
    subst hst
    refine ⟨⟨?_, ?_, ?_⟩, calmPass_all ?_ _⟩
    · show (capTet).Nodup
      simp [capTet, start]
    · simp [Generate.envOf]
    · simp [Generate.envOf]
    · intro f hf
      simp only [Generate.envOf, List.mem_singleton] at hf
      subst hf
      have : ∀ x, Calm 1000 (fun x : Fin 3 → ℝ => x 0) (1 / 2 ^ 26) x := calm_half (by norm_num)
      simpa [Generate.envOf] using this

end

end SM.Units
