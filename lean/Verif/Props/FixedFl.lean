import Verif.Model.FixedFl
import Verif.Props.SdfFl
import Verif.Props.BallFl
import Verif.Props.QualFl
import Mathlib.Tactic.Linarith
import Mathlib.Tactic.Positivity
import Mathlib.Tactic.FinCases

/-!
# C139: fixed points in floating-point arithmetic
-/

namespace SM.FixedFl

open SdfFl

section kept
variable {K : Type} [Field K] [LinearOrder K] [IsStrictOrderedRing K] {d : ℕ} {rnd : K → K} {u : K}

/-! ### The node closest to a fixed point -/

theorem rnd_zero (ha : Accurate rnd u) : rnd 0 = 0 := by
  have := ha 0
  simpa using this

theorem rnd_pos (ha : Accurate rnd u) (hu : u < 1) {x : K} (hx : 0 < x) : 0 < rnd x := by
  have := abs_le.1 (ha x)
  rw [abs_of_pos hx] at this
  nlinarith [this.1]

theorem rnd_nonneg (ha : Accurate rnd u) (hu : u < 1) {x : K} (hx : 0 ≤ x) : 0 ≤ rnd x := by
  rcases hx.eq_or_lt with rfl | h
  · rw [rnd_zero ha]
  · exact (rnd_pos ha hu h).le

theorem rnd_ne (ha : Accurate rnd u) (hu : u < 1) {x : K} (hx : x ≠ 0) : rnd x ≠ 0 := by
  intro h
  have := ha x
  rw [h, zero_sub, abs_neg] at this
  have hx' := abs_pos.2 hx
  nlinarith

theorem sum_nonneg (ha : Accurate rnd u) (hu : u < 1) (g : Fin d → K) : ∀ (l : List (Fin d)) (s : K), 0 ≤ s → 0 ≤ l.foldl (fun s i => rnd (s + rnd (g i * g i))) s ∧
    ((0 < s ∨ ∃ i ∈ l, g i ≠ 0) → 0 < l.foldl (fun s i => rnd (s + rnd (g i * g i))) s)
  | [], s, h => ⟨h, by rintro (h | ⟨i, hi, -⟩); exacts [h, absurd hi (by simp)]⟩
  | i :: l, s, h => by
    have hg : 0 ≤ rnd (g i * g i) := rnd_nonneg ha hu (mul_self_nonneg _)
    have := sum_nonneg ha hu g l _ (rnd_nonneg ha hu (add_nonneg h hg))
    refine ⟨this.1, fun hh => this.2 ?_⟩
    rcases hh with hh | ⟨j, hj, hne⟩
    · exact .inl (rnd_pos ha hu (by linarith))
    · rcases List.mem_cons.1 hj with rfl | hj
      · exact .inl (rnd_pos ha hu (by linarith [rnd_pos ha hu (mul_self_pos.2 hne)]))
      · exact .inr ⟨j, hj, hne⟩

theorem dist2_nonneg (ha : Accurate rnd u) (hu : u < 1) (f v : Fin d → K) : 0 ≤ dist2 rnd f v := (sum_nonneg ha hu _ _ 0 le_rfl).1

theorem dist2_eq_zero (ha : Accurate rnd u) (hu : u < 1) {f v : Fin d → K} : dist2 rnd f v = 0 ↔ v = f := by
  constructor
  · intro h
    by_contra hne
    obtain ⟨k, hk⟩ := Function.ne_iff.1 hne
    have := (sum_nonneg ha hu (fun k => rnd (v k - f k)) (List.finRange d) 0 le_rfl).2 (.inr ⟨k, List.mem_finRange k, rnd_ne ha hu (sub_ne_zero.2 hk)⟩)
    unfold dist2 ProjectFl.sumSq at h
    exact this.ne' h
  · rintro rfl
    have : ∀ l : List (Fin d), l.foldl (fun s i => rnd (s + rnd (rnd (v i - v i) * rnd (v i - v i)))) 0 = 0 := by
      intro l
      induction l with
      | nil => rfl
      | cons i l ih =>
        rw [List.foldl_cons]
        simp only [sub_self, rnd_zero ha, mul_zero, add_zero] at ih ⊢
        exact ih
    exact this _

/-- The node found is the fixed point itself if it is a node. -/
theorem closestNode_mem (ha : Accurate rnd u) (hu : u < 1) {p : List (Fin d → K)} {f : Fin d → K} (h : f ∈ p) : ∃ i, closestNode rnd p f = .ok i ∧ p[i]? = some f := by
  obtain ⟨j, hj, rfl⟩ := List.getElem_of_mem h
  unfold closestNode
  cases hm : (List.finRange p.length).argmin fun i => dist2 rnd p[j] (p.get i) with
  | none =>
    rw [List.argmin_eq_none] at hm
    have := List.mem_finRange (⟨j, hj⟩ : Fin p.length)
    rw [hm] at this
    simp at this
  | some i =>
    refine ⟨i.1, rfl, ?_⟩
    have h1 : dist2 rnd p[j] (p.get i) ≤ dist2 rnd p[j] (p.get ⟨j, hj⟩) :=
      List.le_of_mem_argmin (f := fun i => dist2 rnd p[j] (p.get i)) (List.mem_finRange _) hm
    have h2 : dist2 rnd p[j] (p.get ⟨j, hj⟩) = 0 := (dist2_eq_zero ha hu).2 rfl
    rw [h2] at h1
    have := (dist2_eq_zero ha hu).1 (le_antisymm h1 (dist2_nonneg ha hu _ _))
    rw [List.getElem?_eq_getElem i.2, ← this]
    rfl

theorem closestNode_ok {p : List (Fin d → K)} (hp : p ≠ []) (f : Fin d → K) : ∃ i, closestNode rnd p f = .ok i := by
  unfold closestNode
  cases hm : (List.finRange p.length).argmin fun i => dist2 rnd f (p.get i) with
  | none =>
    rw [List.argmin_eq_none] at hm
    exact absurd (by simpa using congrArg List.length hm) hp
  | some i => exact ⟨i.1, rfl⟩

/-! ### One pass -/

theorem mapM_some {α β : Type} {f : α → Except String β} : ∀ {l : List α}, (∀ x ∈ l, ∃ y, f x = .ok y) →
    ∃ ys, l.mapM f = .ok ys ∧ ∀ x ∈ l, ∀ y, f x = .ok y → y ∈ ys
  | [], _ => ⟨[], rfl, by simp⟩
  | a :: l, h => by
    obtain ⟨y, hy⟩ := h a (by simp)
    obtain ⟨ys, hys, hm⟩ := mapM_some (l := l) fun x hx => h x (by simp [hx])
    refine ⟨y :: ys, by simp only [List.mapM_cons, hy, hys, bind, Except.bind, pure, Except.pure], fun x hx z hz => ?_⟩
    rcases List.mem_cons.1 hx with rfl | hx
    · rw [hy] at hz
      cases hz
      simp
    · exact List.mem_cons_of_mem _ (hm x hx z hz)

/-- The domain and the subdomains leave `f` where it is: the computed value of the domain at `f` is not positive, that of a subdomain not positive or not below the computed `h0 / 1.5`. -/
def Undisturbed (R : Run K d) (f : Fin d → K) : Prop :=
  ∀ (i : ℕ) fl, R.levels[i]? = some fl → fl f ≤ 0 ∨ 0 < i ∧ R.rnd (R.h0 / (3 / 2)) ≤ fl f

theorem projectAll_id {deps h0 : K} {f : Fin d → K} : ∀ (ls : List ((Fin d → K) → K)) (idx : ℕ),
    (∀ (i : ℕ) fl, ls[i]? = some fl → fl f ≤ 0 ∨ 0 < idx + i ∧ rnd (h0 / (3 / 2)) ≤ fl f) → projectAll rnd deps h0 idx ls f = f
  | [], _, _ => rfl
  | l :: ls, idx, h => by
    have h0' : projectPoint rnd deps h0 idx l f = f := by
      unfold projectPoint
      rw [if_neg]
      rintro ⟨h1, h2⟩
      rcases h 0 l rfl with h3 | ⟨h3, h4⟩
      · exact absurd h1 (not_lt.2 h3)
      · rcases h2 with h2 | h2
        · omega
        · exact absurd h2 (not_lt.2 h4)
    rw [projectAll, h0']
    refine projectAll_id ls (idx + 1) fun i fl hi => ?_
    rw [add_assoc, add_comm 1 i]
    exact h (i + 1) fl (by simpa using hi)

/-- **C139 (no force).** A node treated as a fixed point feels no force: in a pass it is moved by the projection only. -/
theorem C139_no_force {R : Run K d} (ha : Accurate R.rnd u) {p : List (Fin d → K)} (hF : ∀ p t, (R.forces p t).length = p.length) {ifix : List ℕ}
    (hif : R.pfix.mapM (closestNode R.rnd (R.dt p).1) = .ok ifix) : ∃ p', pass R p = .ok p' ∧ p'.length = (R.dt p).1.length ∧
      ∀ i ∈ ifix, ∀ x, (R.dt p).1[i]? = some x → (∀ k, R.rnd (x k) = x k) → p'[i]? = some (projectAll R.rnd R.deps R.h0 0 R.levels x) := by
  refine ⟨_, by simp only [pass, hif, bind, Except.bind, pure, Except.pure]; rfl, by simp [advance, zeroAt, hF], fun i hi x hx hr => ?_⟩
  have hlt := (List.getElem?_eq_some_iff.1 hx).1
  have hF' : i < (R.forces (R.dt p).1 (R.dt p).2).length := by rw [hF]; exact hlt
  have hz : (zeroAt ifix (R.forces (R.dt p).1 (R.dt p).2))[i]? = some 0 := by
    simp [zeroAt, List.getElem?_eq_getElem hF', hi]
  have ha' : (advance R.rnd R.deltaT (R.dt p).1 (zeroAt ifix (R.forces (R.dt p).1 (R.dt p).2)))[i]? = some x := by
    simp only [advance, List.getElem?_zipWith, hx, hz, Option.some.injEq]
    funext k
    simp [rnd_zero ha, hr k]
  rw [List.getElem?_map, ha']
  rfl

/-- **C139 (fixed points stay, bit by bit).** In arithmetic of relative precision `u < 1`: a fixed point whose coordinates are floating-point numbers, which is among the starting points and where
the computed level sets are as they should be (`Undisturbed`), is a point at the beginning of every pass and of every triangulation, with exactly the same coordinates, whatever the forces are. -/
theorem C139_kept {R : Run K d} (hu : u < 1) (ha : Accurate R.rnd u) (hdt : ∀ p, ∀ x ∈ p, x ∈ (R.dt p).1) (hF : ∀ p t, (R.forces p t).length = p.length)
    (hrep : ∀ f ∈ R.pfix, ∀ k, R.rnd (f k) = f k) (hlev : ∀ f ∈ R.pfix, Undisturbed R f) (n : ℕ) {p0 : List (Fin d → K)} (h0 : ∀ f ∈ R.pfix, f ∈ p0) :
    ∃ p, passes R n p0 = .ok p ∧ ∀ f ∈ R.pfix, f ∈ p ∧ f ∈ (R.dt p).1 := by
  induction n generalizing p0 with
  | zero => exact ⟨p0, rfl, fun f hf => ⟨h0 f hf, hdt _ f (h0 f hf)⟩⟩
  | succ n ih =>
    have hcl : ∀ f ∈ R.pfix, ∃ i, closestNode R.rnd (R.dt p0).1 f = .ok i ∧ (R.dt p0).1[i]? = some f := fun f hf => closestNode_mem ha hu (hdt _ f (h0 f hf))
    obtain ⟨ifix, hif, hmem⟩ := mapM_some (f := closestNode R.rnd (R.dt p0).1) fun f hf => (hcl f hf).imp fun _ h => h.1
    obtain ⟨p', hp', -, hfix⟩ := C139_no_force ha hF hif
    have hstay : ∀ f ∈ R.pfix, f ∈ p' := by
      intro f hf
      obtain ⟨i, hi, hx⟩ := hcl f hf
      have := hfix i (hmem f hf i hi) f hx (hrep f hf)
      rw [projectAll_id _ 0 fun i fl hl => by simpa using hlev f hf i fl hl] at this
      exact List.mem_of_getElem? this
    obtain ⟨p, hp, h⟩ := ih hstay
    exact ⟨p, by simp only [passes, hp', bind, Except.bind]; exact hp, h⟩

/-- **C139 (domains made of boxes).** If the domain is a sharp combination of boxes (without `translate`) and there are no subdomains, every fixed point in the closed domain whose coordinates are
floating-point numbers stays, corners included. -/
theorem C139_boxes {R : Run K d} (hr : Rounding R.rnd) (hu : u < 1) (ha : Accurate R.rnd u) (hdt : ∀ p, ∀ x ∈ p, x ∈ (R.dt p).1) (hF : ∀ p t, (R.forces p t).length = p.length)
    {g : Geo K d} (hg : g.AllPrims Untranslated) (hl : R.levels = [g.eval R.rnd]) (hrep : ∀ f ∈ R.pfix, ∀ k, R.rnd (f k) = f k) (hin : ∀ f ∈ R.pfix, g.Closed f) (n : ℕ)
    {p0 : List (Fin d → K)} (h0 : ∀ f ∈ R.pfix, f ∈ p0) : ∃ p, passes R n p0 = .ok p ∧ ∀ f ∈ R.pfix, f ∈ p ∧ f ∈ (R.dt p).1 := by
  have hneg : ∀ f ∈ R.pfix, g.eval R.rnd f ≤ 0 := fun f hf => not_lt.1 fun h => (C107_classification hr f g hg).2.2.1 h (hin f hf)
  refine C139_kept hu ha hdt hF hrep (fun f hf i fl h => .inl ?_) n h0
  rw [hl] at h
  obtain ⟨hi, h⟩ := List.getElem?_eq_some_iff.1 h
  obtain rfl : i = 0 := by simpa using hi
  cases h
  exact hneg f hf

end kept

/-! ### Curved boundaries -/

section map
variable {L M : Type} [Field L] [LinearOrder L] [Field M] [LinearOrder M] {d : ℕ}

theorem sumSq_map (f : L →+* M) {rnd : L → L} {rnd' : M → M} (h : ∀ x, rnd' (f x) = f (rnd x)) (g : Fin d → L) :
    ProjectFl.sumSq rnd' (fun k => f (g k)) = f (ProjectFl.sumSq rnd g) := by
  have : ∀ (l : List (Fin d)) (s : L), l.foldl (fun s i => rnd' (s + rnd' (f (g i) * f (g i)))) (f s) = f (l.foldl (fun s i => rnd (s + rnd (g i * g i))) s) := by
    intro l
    induction l with
    | nil => intro s; rfl
    | cons i l ih =>
      intro s
      simp only [List.foldl_cons, ← map_mul, h, ← map_add]
      rw [← ih]
      simp only [← map_mul, h]
  rw [ProjectFl.sumSq, ProjectFl.sumSq, ← map_zero f]
  exact this _ _

/-- The Newton step commutes with an embedding of number systems that respects rounding and order. -/
theorem newton_map (f : L →+* M) (hlt : ∀ x y, f x < f y ↔ x < y) {rnd : L → L} {rnd' : M → M} (h : ∀ x, rnd' (f x) = f (rnd x)) {fl : (Fin d → L) → L} {fl' : (Fin d → M) → M}
    (hfl : ∀ x, fl' (fun k => f (x k)) = f (fl x)) (deps : L) (x : Fin d → L) :
    ProjectFl.newton rnd' fl' (f deps) (fun k => f (x k)) = fun k => f (ProjectFl.newton rnd fl deps x k) := by
  have hb : ∀ i, ProjectFl.bump rnd' (f deps) (fun k => f (x k)) i = fun k => f (ProjectFl.bump rnd deps x i k) := by
    intro i
    funext k
    simp only [ProjectFl.bump, ← map_add, h]
    split_ifs <;> rfl
  have hg : ∀ i, ProjectFl.dgrad rnd' fl' (f deps) (fun k => f (x k)) i = f (ProjectFl.dgrad rnd fl deps x i) := by
    intro i
    simp only [ProjectFl.dgrad, hb, hfl, ← map_sub, h, ← map_div₀]
  have hg2 : ProjectFl.dgrad2 rnd' fl' (f deps) (fun k => f (x k)) = f (ProjectFl.dgrad2 rnd fl deps x) := by
    have e : ProjectFl.dgrad rnd' fl' (f deps) (fun k => f (x k)) = fun i => f (ProjectFl.dgrad rnd fl deps x i) := funext hg
    simp only [ProjectFl.dgrad2, e, sumSq_map f h, hlt]
    split_ifs <;> rfl
  funext i
  simp only [ProjectFl.newton, hfl, hg, hg2, ← map_mul, h, ← map_div₀, ← map_sub]

end map

/-- `_ddisk` over the rationals. -/
def diskQ (x : Fin 2 → ℚ) : ℚ :=
  Fl.binary64 (Fl.sqrt64 (Fl.binary64 (Fl.binary64 (Fl.binary64 (x 0 - 1) * Fl.binary64 (x 0 - 1)) + Fl.binary64 (Fl.binary64 (x 1 - 1) * Fl.binary64 (x 1 - 1)))) - 3 / 2)

/-- A point of the disk around (1,1) of radius 3/2, next to its boundary. -/
def rimQ : Fin 2 → ℚ := ![2780111411596973 / 2 ^ 52, -8112984820137859 / 2 ^ 54]

/-- The same with real coordinates. -/
noncomputable def rim : Fin 2 → ℝ := ![2780111411596973 / 2 ^ 52, -8112984820137859 / 2 ^ 54]

theorem disk_cast (x : Fin 2 → ℚ) : BallFl.ddisk BallFl.binary64 1 1 (3 / 2) (fun k => (x k : ℝ)) = (diskQ x : ℝ) := by
  have hs : ∀ a : ℚ, BallFl.sqDiff BallFl.binary64 (a : ℝ) 1 = (Fl.binary64 (Fl.binary64 (a - 1) * Fl.binary64 (a - 1)) : ℚ) := by
    intro a
    rw [BallFl.sqDiff, show ((a : ℝ) - 1) = ((a - 1 : ℚ) : ℝ) by push_cast; ring, Fl.binary64_cast, ← Rat.cast_mul, Fl.binary64_cast]
  rw [BallFl.ddisk, hs, hs, ← Rat.cast_add, Fl.binary64_cast, Fl.sqrt64_cast, show (3 / 2 : ℝ) = ((3 / 2 : ℚ) : ℝ) by norm_num, ← Rat.cast_sub, Fl.binary64_cast]
  rfl

theorem rim_cast : rim = fun k => (rimQ k : ℝ) := by
  funext k
  fin_cases k <;> simp [rim, rimQ]

/-- **C139 (finding): on curved boundaries rounding moves fixed points.** In double precision, on the disk around (1,1) of radius 3/2: the fixed point `rim` has floating-point coordinates and
lies in the closed disk, but the computed distance is positive, and the first pass moves it (by no more than 2⁻⁵⁰), for any triangulation that lists it first, any forces and step. -/
theorem C139_curved_moves {R : Run ℝ 2} (hrnd : R.rnd = BallFl.binary64) (hdeps : R.deps = 1 / 2 ^ 30) (hl : R.levels = [BallFl.ddisk BallFl.binary64 1 1 (3 / 2)])
    (hpfix : R.pfix = [rim]) (hF : ∀ p t, (R.forces p t).length = p.length) {p0 rest : List (Fin 2 → ℝ)} (hdt : (R.dt p0).1 = rim :: rest) :
    (rim 0 - 1) ^ 2 + (rim 1 - 1) ^ 2 ≤ (3 / 2) ^ 2 ∧ (∀ k, BallFl.binary64 (rim k) = rim k) ∧ 0 < BallFl.ddisk BallFl.binary64 1 1 (3 / 2) rim ∧
      ∃ p f', passes R 1 p0 = .ok p ∧ p[0]? = some f' ∧ f' ≠ rim ∧ ∀ k, |f' k - rim k| ≤ 1 / 2 ^ 50 := by
  have hrep : ∀ k, BallFl.binary64 (rim k) = rim k := by
    intro k
    rw [rim_cast]
    have : ∀ k, Fl.binary64 (rimQ k) = rimQ k := by decide +kernel
    simp only [Fl.binary64_cast, this]
  have hpos : 0 < BallFl.ddisk BallFl.binary64 1 1 (3 / 2) rim := by
    rw [rim_cast, disk_cast]
    have : 0 < diskQ rimQ := by decide +kernel
    exact_mod_cast this
  have ha : Accurate R.rnd (1 / 9007199254740992) := by rw [hrnd]; exact BallFl.C123_binary64.2
  have hnew : ProjectFl.newton R.rnd (BallFl.ddisk BallFl.binary64 1 1 (3 / 2)) R.deps rim = fun k => ((ProjectFl.newton Fl.binary64 diskQ (1 / 2 ^ 30) rimQ k : ℚ) : ℝ) := by
    rw [hrnd, hdeps, rim_cast]
    have := newton_map (Rat.castHom ℝ) (fun x y => by change (x : ℝ) < (y : ℝ) ↔ x < y; exact_mod_cast Iff.rfl) (rnd := Fl.binary64) (rnd' := BallFl.binary64)
      (fun x => Fl.binary64_cast x) (fl := diskQ) (fl' := BallFl.ddisk BallFl.binary64 1 1 (3 / 2)) disk_cast (1 / 2 ^ 30) rimQ
    rw [← show (Rat.castHom ℝ) (1 / 2 ^ 30) = 1 / 2 ^ 30 by norm_num]
    exact this
  refine ⟨?_, hrep, hpos, ?_⟩
  · have h1 : (rimQ 0 - 1) ^ 2 + (rimQ 1 - 1) ^ 2 ≤ (3 / 2) ^ 2 := by decide +kernel
    have h2 : ((rimQ 0 : ℝ) - 1) ^ 2 + ((rimQ 1 : ℝ) - 1) ^ 2 ≤ (3 / 2) ^ 2 := by
      have : (((rimQ 0 - 1) ^ 2 + (rimQ 1 - 1) ^ 2 : ℚ) : ℝ) ≤ (((3 / 2) ^ 2 : ℚ) : ℝ) := Rat.cast_le.2 h1
      push_cast at this
      exact this
    rw [rim_cast]
    exact h2
  · have hmem : rim ∈ (R.dt p0).1 := by rw [hdt]; simp
    obtain ⟨j, hj, -⟩ := closestNode_mem ha (by norm_num) hmem
    have hj0 : closestNode R.rnd (R.dt p0).1 rim = .ok 0 := by
      rw [hdt]
      unfold closestNode
      have : (List.finRange (rim :: rest).length).argmin (fun i => dist2 R.rnd rim ((rim :: rest).get i)) = some 0 := by
        rw [List.argmin_eq_some_iff]
        refine ⟨List.mem_finRange _, fun i _ => ?_, fun i _ _ => ?_⟩
        · have : dist2 R.rnd rim ((rim :: rest).get 0) = 0 := (dist2_eq_zero ha (by norm_num)).2 rfl
          rw [this]
          exact dist2_nonneg ha (by norm_num) _ _
        · have : (List.finRange (rest.length + 1)).idxOf (0 : Fin (rest.length + 1)) = 0 := by
            rw [List.finRange_succ]
            simp
          exact this.le.trans (Nat.zero_le _)
      rw [this]
      rfl
    have hif : R.pfix.mapM (closestNode R.rnd (R.dt p0).1) = .ok [0] := by
      rw [hpfix]
      simp only [List.mapM_cons, List.mapM_nil, hj0, bind, Except.bind, pure, Except.pure]
    obtain ⟨p, hp, -, hfix⟩ := C139_no_force ha hF hif
    have h0 := hfix 0 (by simp) rim (by rw [hdt]; rfl) (by rw [hrnd]; exact hrep)
    rw [hl] at h0
    have hproj : projectAll R.rnd R.deps R.h0 0 [BallFl.ddisk BallFl.binary64 1 1 (3 / 2)] rim =
        ProjectFl.newton R.rnd (BallFl.ddisk BallFl.binary64 1 1 (3 / 2)) R.deps rim := by
      rw [projectAll, projectAll, projectPoint, if_pos ⟨hpos, .inl rfl⟩]
    rw [hproj, hnew] at h0
    refine ⟨p, _, by simp only [passes, hp, bind, Except.bind], h0, ?_, ?_⟩
    · intro h
      rw [rim_cast] at h
      have h1 : ProjectFl.newton Fl.binary64 diskQ (1 / 2 ^ 30) rimQ 0 = rimQ 0 := by exact_mod_cast congrFun h 0
      have h2 : ProjectFl.newton Fl.binary64 diskQ (1 / 2 ^ 30) rimQ 0 ≠ rimQ 0 := by decide +kernel
      exact h2 h1
    · intro k
      have h1 : ∀ k, |ProjectFl.newton Fl.binary64 diskQ (1 / 2 ^ 30) rimQ k - rimQ k| ≤ 1 / 2 ^ 50 := by decide +kernel
      have h2 : |((ProjectFl.newton Fl.binary64 diskQ (1 / 2 ^ 30) rimQ k : ℚ) : ℝ) - (rimQ k : ℝ)| ≤ ((1 / 2 ^ 50 : ℚ) : ℝ) := by
        rw [← Rat.cast_sub, ← Rat.cast_abs]
        exact_mod_cast h1 k
      rw [rim_cast]
      exact h2.trans (by norm_num)

/-- A run that meets the hypotheses of `C139_boxes`: the unit square with one of its corners fixed, double precision. -/
example : ∃ R : Run ℚ 2, Rounding R.rnd ∧ Accurate R.rnd (1 / 9007199254740992) ∧ (∀ p, ∀ x ∈ p, x ∈ (R.dt p).1) ∧ (∀ p t, (R.forces p t).length = p.length) ∧
    R.pfix = [![1, 1]] ∧ (∀ f ∈ R.pfix, ∀ k, R.rnd (f k) = f k) ∧ ∃ g : Geo ℚ 2, g.AllPrims Untranslated ∧ R.levels = [g.eval R.rnd] ∧ ∀ f ∈ R.pfix, g.Closed f := by
  refine ⟨⟨Fl.binary64, fun p => (p, []), fun p _ => p.map fun _ _ => 1 / 10, [![1, 1]], [(Geo.prim (.rect 0 1 0 1 none)).eval Fl.binary64], 1 / 2 ^ 30, 1 / 16, 3 / 10⟩,
    C107_binary64.1, C107_binary64.2, fun p x hx => hx, fun p t => by simp, rfl, ?_, .prim (.rect 0 1 0 1 none), ?_, rfl, ?_⟩
  · intro f hf k
    simp only [List.mem_singleton] at hf
    subst hf
    have : ∀ k, Fl.binary64 ((![1, 1] : Fin 2 → ℚ) k) = (![1, 1] : Fin 2 → ℚ) k := by decide +kernel
    exact this k
  · simp [Geo.AllPrims, Untranslated, Prim.shift]
  · intro f hf
    simp only [List.mem_singleton] at hf
    subst hf
    simp only [Geo.Closed, ← (Prim.exact _ _).2]
    decide +kernel

end SM.FixedFl
