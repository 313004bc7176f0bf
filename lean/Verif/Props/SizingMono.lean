import Verif.Props.SizingGrade
import Verif.Props.LimgradForm
import Verif.Props.Interp
import Verif.Props.SizingLip

/-!
# C99: asking for more resolution never makes the mesh coarser

Two calls of `get_sizing_function_from_segy` on the same velocity model and bbox, whose options differ only in how
much resolution they ask for.
-/

namespace SM.Sizing

open Limgrad (GradedBy InGrid IsMin at3 Adjacent diameter gdist)

variable {K : Type} [Field K] [LinearOrder K] [IsStrictOrderedRing K]

/-- The options `o` ask for at least as fine a mesh as `o'`: size bounds not larger; at least as many cells per
wavelength and at least the frequency; a gradient resolution not coarser; a smaller timestep; a smaller grade.
Everything else is equal. A criterion that is off in `o'` (value 0) may be switched on in `o`, for `wl` and `grad`
provided the other of the two was active already, and sizes are below 99999 m (the code's stand-in for "off"). -/
structure Finer (o o' : Opts K) : Prop where
  water : o.vpWater = o'.vpWater
  units : o.units = o'.units
  window : o.window = o'.window
  order : o.spaceOrder = o'.spaceOrder
  cr : o.crMax = o'.crMax
  style : o.padStyle = o'.padStyle
  pad : o.domainPad = o'.domainPad
  hmin : o.hmin ≤ o'.hmin
  hmax : o.hmax ≤ o'.hmax
  freq : o'.freq ≤ o.freq
  wl : o'.wl ≤ o.wl
  grad : o.grad = o'.grad ∨ (0 < o.grad ∧ (o.grad ≤ o'.grad ∨ o'.grad = 0))
  dt : o.dt ≤ o'.dt
  grade : o.grade = o'.grade ∨ (0 < o.grade ∧ (o.grade ≤ o'.grade ∨ o'.grade = 0))
  switchWl : o'.wl = 0 → o.wl ≠ 0 → 0 < o'.grad ∧ o.hmax ≤ 99999
  switchGrad : o'.grad = 0 → o.grad ≠ 0 → 0 < o'.wl ∧ o.hmax ≤ 99999

/-- The size for the wavelength criterion at a velocity. -/
def wlSize (o : Opts K) (v : K) : K := if o.wl = 0 then 99999 else v / (o.freq * o.wl)

/-- The divisor of the gradient criterion at a node. -/
def gradDiv (d0 d1 d2 : ℕ) (w : ℕ × ℕ × ℕ) (V : Arr K) (i j k : ℕ) : K :=
  winVar d0 d1 d2 w V i j k / amax d0 d1 d2 (winVar d0 d1 d2 w V) -
    amin d0 d1 d2 (fun i j k => winVar d0 d1 d2 w V i j k / amax d0 d1 d2 (winVar d0 d1 d2 w V)) + 1 / 10

theorem gradDiv_pos {d0 d1 d2 : ℕ} (w : ℕ × ℕ × ℕ) (V : Arr K) {i j k : ℕ} (hi : i < d0) (hj : j < d1)
    (hk : k < d2) : 0 < gradDiv d0 d1 d2 w V i j k := by
  have := amin_le (fun i j k => winVar d0 d1 d2 w V i j k / amax d0 d1 d2 (winVar d0 d1 d2 w V)) hi hj hk
  unfold gradDiv
  linarith

/-- The size for the gradient criterion at a node. -/
def gradSize (d0 d1 d2 : ℕ) (o : Opts K) (V : Arr K) (i j k : ℕ) : K :=
  if o.grad = 0 then 99999 else o.grad / gradDiv d0 d1 d2 o.window V i j k

/-- The clamped request at a node. -/
theorem request_value {d0 d1 d2 : ℕ} {o : Opts K} {V : Arr K} {req : Arr (Fl K)}
    (hf : 0 < o.freq) (hw : 0 ≤ o.wl)
    (hreq : requested d0 d1 d2 o V = .ok req) {i j k : ℕ} (hi : i < d0) (hj : j < d1) (hk : k < d2) {x : K}
    (hx : clamp o.hmin o.hmax (req i j k) = .fin x) :
    x = min o.hmax (max o.hmin (if 0 < o.wl ∨ 0 < o.grad then
      min (wlSize o (V i j k)) (gradSize d0 d1 d2 o V i j k) else o.hmin)) := by
  unfold requested at hreq
  split_ifs at hreq ⊢ with hact
  · have ha : wavelengthSizing V o.wl o.freq = .ok fun i j k => .fin (wlSize o (V i j k)) := by
      unfold wavelengthSizing wlSize
      split_ifs with h1 h2 h3
      · rfl
      · exact absurd h2 (not_lt.2 hw)
      · exact absurd h3 (not_lt.2 hf.le)
      · congr 1; funext i j k
        unfold fdiv
        rw [if_neg (mul_ne_zero hf.ne' h1)]
    rw [ha] at hreq
    simp only at hreq
    cases hg : gradientSizing d0 d1 d2 o.window V o.grad with
    | error e => rw [hg] at hreq; cases hreq
    | ok b =>
      rw [hg] at hreq
      simp only [Except.ok.injEq] at hreq
      subst hreq
      have hb : b i j k = .nan ∨ b i j k = .fin (gradSize d0 d1 d2 o V i j k) := by
        unfold gradientSizing at hg
        split_ifs at hg with g1 g2
        · cases hg; right; simp [gradSize, g1]
        simp only at hg
        split_ifs at hg with g3
        · cases hg; left; rfl
        · right
          simp only [Except.ok.injEq] at hg
          subst hg
          have hp := gradDiv_pos o.window V hi hj hk
          simp only [gradSize, if_neg g1]
          unfold gradDiv at hp ⊢
          unfold fdiv
          rw [if_neg hp.ne']
      rcases hb with hb | hb
      · simp only [hb, fmin, clamp_nan] at hx; cases hx
      · simp only [hb, fmin, clamp_fin] at hx
        cases hx; rfl
  · cases hreq
    simp only [clamp_fin] at hx
    cases hx; rfl

theorem request_mono {d0 d1 d2 : ℕ} {o o' : Opts K} {V V' : Arr K} {req req' : Arr (Fl K)} (hfin : Finer o o')
    (hle : o.hmin ≤ o.hmax) (hf : 0 < o'.freq) (hw : 0 ≤ o'.wl) (hVV : V = V' ∨ (o.grad = 0 ∧ o'.grad = 0 ∧ AllNodes d0 d1 d2 fun i j k => V i j k ≤ V' i j k))
    (hreq : requested d0 d1 d2 o V = .ok req) (hreq' : requested d0 d1 d2 o' V' = .ok req')
    {i j k : ℕ} (hi : i < d0) (hj : j < d1) (hk : k < d2) (hV : 0 ≤ V i j k) {x x' : K}
    (hx : clamp o.hmin o.hmax (req i j k) = .fin x) (hx' : clamp o'.hmin o'.hmax (req' i j k) = .fin x') :
    x ≤ x' := by
  have hF : 0 < o.freq := lt_of_lt_of_le hf hfin.freq
  have hW : 0 ≤ o.wl := hw.trans hfin.wl
  rw [request_value hF hW hreq hi hj hk hx, request_value hf hw hreq' hi hj hk hx']
  have hle1 : V i j k ≤ V' i j k := by
    rcases hVV with e | ⟨-, -, h⟩
    · rw [e]
    · exact h i hi j hj k hk
  have hwl : min o.hmax (wlSize o (V i j k)) ≤ wlSize o' (V' i j k) := by
    unfold wlSize
    by_cases h1 : o'.wl = 0
    · rw [if_pos h1]
      by_cases h2 : o.wl = 0
      · rw [if_pos h2]; exact min_le_right _ _
      · exact (min_le_left _ _).trans (hfin.switchWl h1 h2).2
    · have h1' : 0 < o'.wl := lt_of_le_of_ne hw (Ne.symm h1)
      have h2 : 0 < o.wl := lt_of_lt_of_le h1' hfin.wl
      rw [if_neg h1, if_neg h2.ne']
      refine (min_le_right _ _).trans (le_trans ?_ (div_le_div_of_nonneg_right hle1 (mul_pos hf h1').le))
      refine div_le_div_of_nonneg_left hV (mul_pos hf h1') ?_
      exact mul_le_mul hfin.freq hfin.wl hw (hf.le.trans hfin.freq)
  have hgr : 0 < o'.wl ∨ 0 < o'.grad →
      min o.hmax (gradSize d0 d1 d2 o V i j k) ≤ gradSize d0 d1 d2 o' V' i j k := by
    intro hact
    unfold gradSize
    rcases hVV with e | ⟨hg, hg', -⟩
    swap
    · rw [if_pos hg, if_pos hg']; exact min_le_right _ _
    subst e
    have hdiv := gradDiv_pos (d0 := d0) (d1 := d1) (d2 := d2) o'.window V hi hj hk
    rw [hfin.window]
    rcases hfin.grad with e | ⟨h1, h2⟩
    · rw [e]; exact min_le_right _ _
    · rw [if_neg h1.ne']
      rcases h2 with h2 | h2
      · rw [if_neg (lt_of_lt_of_le h1 h2).ne']
        exact (min_le_right _ _).trans (div_le_div_of_nonneg_right h2 hdiv.le)
      · rw [if_pos h2]
        exact (min_le_left _ _).trans (hfin.switchGrad h2 h1.ne').2
  by_cases hact' : 0 < o'.wl ∨ 0 < o'.grad
  · have hact : 0 < o.wl ∨ 0 < o.grad := by
      rcases hact' with h | h
      · exact .inl (lt_of_lt_of_le h hfin.wl)
      · rcases hfin.grad with e | ⟨h1, -⟩
        · exact .inr (e ▸ h)
        · exact .inr h1
    rw [if_pos hact, if_pos hact']
    refine le_min ((min_le_left _ _).trans hfin.hmax) ?_
    have hgr' := hgr hact'
    set w := wlSize o (V i j k)
    set g := gradSize d0 d1 d2 o V i j k
    rcases le_total (min w g) o.hmin with h | h
    · rw [max_eq_left h]
      exact (min_le_right _ _).trans (hfin.hmin.trans (le_max_left _ _))
    · rw [max_eq_right h]
      refine le_trans (le_min ?_ ?_) (le_max_right _ _)
      · exact le_trans (le_min (min_le_left _ _) ((min_le_right _ _).trans (min_le_left _ _))) hwl
      · exact le_trans (le_min (min_le_left _ _) ((min_le_right _ _).trans (min_le_right _ _))) hgr'
  · have hact : ¬ (0 < o.wl ∨ 0 < o.grad) := by
      push Not at hact'
      have hw0 : o'.wl = 0 := le_antisymm hact'.1 hw
      rintro (h | h)
      · exact absurd (hfin.switchWl hw0 h.ne').1 (not_lt.2 hact'.2)
      · rcases hfin.grad with e | ⟨h1, h2 | h2⟩
        · rw [e] at h; exact absurd h (not_lt.2 hact'.2)
        · exact absurd (lt_of_lt_of_le h1 h2) (not_lt.2 hact'.2)
        · exact absurd (hfin.switchGrad h2 h1.ne').1 (not_lt.2 hact'.1)
    rw [if_neg hact, if_neg hact', max_self, max_self, min_eq_right hle]
    exact le_min (hle.trans hfin.hmax) hfin.hmin

variable [FloorSemiring K]

/-- The tolerance of the limiter over the whole model. -/
def tolerance (seps : K) (d0 d1 d2 : ℕ) (o : Opts K) : K :=
  if o.grade = 0 then 0 else diameter d0 d1 d2 * (o.hmax * seps)

/-- The common core of C99 and C113: options `o` at least as fine as `o'`, and the same velocities, or, without the gradient criterion, velocities that are not
larger. -/
theorem finer_core {seps : K} {d0 d1 d2 : ℕ} {o o' : Opts K} {names names' : List String}
    {bbox : List K} {vp0 vp0' V V' : Arr K} {out out' : Out K} (hfin : Finer o o')
    (h0 : 0 < d0) (h1 : 0 < d1) (h2 : 0 < d2) (hs : 0 ≤ seps) (hb : OrderedBbox bbox)
    (hp : 0 < o.hmin) (hle : o.hmin ≤ o.hmax) (hle' : o'.hmin ≤ o'.hmax)
    (hf : 0 < o'.freq) (hw : 0 ≤ o'.wl) (hV : Prepared d0 d1 d2 o vp0 V) (hV' : Prepared d0 d1 d2 o' vp0' V')
    (hVV : V = V' ∨ (o.grad = 0 ∧ o'.grad = 0 ∧ AllNodes d0 d1 d2 fun i j k => V i j k ≤ V' i j k))
    (hVp : AllNodes d0 d1 d2 fun i j k => 0 ≤ V i j k)
    (hrange : o.grade ≠ 0 → o.hmax - o.hmin ≤ 9999 * (depthOf bbox / d0 * o.grade) ∧
      (o.dt = 0 ∨ AllNodes d0 d1 d2 fun i j k => V i j k * o.dt * o.spaceOrder / o.crMax ≤ o.hmax))
    (h : sizing Limgrad.shippedCap seps d0 d1 d2 o names bbox vp0 = .ok (some out))
    (h' : sizing Limgrad.shippedCap seps d0 d1 d2 o' names' bbox vp0' = .ok (some out')) :
    out.d0 = out'.d0 ∧ out.d1 = out'.d1 ∧ out.d2 = out'.d2 ∧ out.bbox = out'.bbox ∧
    AllNodes out.d0 out.d1 out.d2 fun i j k =>
      out.cell i j k ≤ out'.cell i j k + tolerance seps d0 d1 d2 o := by
  obtain ⟨vp, bb, req, cell, cell1, cell2, hvp, hbb, -, hreq, hfi, hc, hg, hpad⟩ := sizing_some h
  obtain ⟨vp', bb', req', cell', cell1', cell2', hvp', hbb', -, hreq', hfi', hc', hg', hpad'⟩ := sizing_some h'
  have e1 : V = vp := by unfold Prepared at hV; rw [hV] at hvp; cases hvp; rfl
  subst e1
  have e2 : V' = vp' := by unfold Prepared at hV'; rw [hV'] at hvp'; cases hvp'; rfl
  subst e2
  have e3 : bb' = bb := by rw [hbb] at hbb'; cases hbb'; rfl
  subst e3
  have hz : bb'.zLen = depthOf bbox := depthOf_parse hbb
  have hp' : 0 < o'.hmin := lt_of_lt_of_le hp hfin.hmin
  have hst := cell_stages h0 h1 h2 hs hb hp hle hbb hfi hc hg
  have hst' := cell_stages h0 h1 h2 hs hb hp' hle' hbb hfi' hc' hg'
  have hdim : 0 < bb'.dim := by cases bb' <;> simp [Bbox.dim]
  have hcell : AllNodes d0 d1 d2 fun i j k => cell i j k ≤ cell' i j k := fun i hi j hj k hk =>
    request_mono hfin hle hf hw hVV hreq hreq' hi hj hk (hVp i hi j hj k hk)
      (finite_some hfi hi hj hk) (finite_some hfi' hi hj hk)
  have hcell1 : AllNodes d0 d1 d2 fun i j k => cell1 i j k ≤ cell1' i j k := by
    intro i hi j hj k hk
    obtain ⟨a1, a2, a3, a4, a5⟩ := hst i hi j hj k hk
    obtain ⟨b1, b2, b3, b4, b5⟩ := hst' i hi j hj k hk
    have hcl := hcell i hi j hj k hk
    rcases courant_ok hc with ⟨-, rfl⟩ | ⟨hcr, hd, hso, e⟩
    · exact hcl.trans b3
    · rw [e, courant_max hdim (lt_of_lt_of_le hp a1) hcr hso]
      rcases courant_ok hc' with ⟨h0', -⟩ | ⟨hcr', hd', hso', e'⟩
      · rw [← hfin.cr, ← hfin.order] at h0'
        rcases h0' with h0' | h0' | h0'
        · exact absurd h0' hcr.ne'
        · exact absurd h0' (lt_of_lt_of_le hd hfin.dt).ne'
        · rw [h0'] at hso; exact absurd hso (by norm_num)
      · rw [e', courant_max hdim (lt_of_lt_of_le hp' b1) hcr' hso', ← hfin.cr, ← hfin.order]
        refine max_le_max hcl (div_le_div_of_nonneg_right ?_ hcr.le)
        refine mul_le_mul_of_nonneg_right ?_ (by linarith)
        have hle1 : V i j k ≤ V' i j k := by
          rcases hVV with e | ⟨-, -, h⟩
          · rw [e]
          · exact h i hi j hj k hk
        exact mul_le_mul hle1 hfin.dt hd.le ((hVp i hi j hj k hk).trans hle1)
  have hcell2 : AllNodes d0 d1 d2 fun i j k => cell2 i j k ≤ cell2' i j k + tolerance seps d0 d1 d2 o := by
    obtain ⟨c, hlim⟩ := gradation_ok hg
    obtain ⟨c', hlim'⟩ := gradation_ok hg'
    by_cases hgr : o.grade = 0
    · -- both without gradation
      have hgr' : o'.grade = 0 := by
        rcases hfin.grade with e | ⟨h', -⟩
        · rw [← e]; exact hgr
        · exact absurd hgr h'.ne'
      have ec : cell2 = cell1 := by
        rcases Limgrad.enforce_ok hlim with ⟨-, e, -⟩ | ⟨hpos, -, -⟩
        · exact e
        · exact absurd hgr hpos.ne'
      have ec' : cell2' = cell1' := by
        rcases Limgrad.enforce_ok hlim' with ⟨-, e, -⟩ | ⟨hpos, -, -⟩
        · exact e
        · exact absurd hgr' hpos.ne'
      intro i hi j hj k hk
      rw [ec, ec', tolerance, if_pos hgr, add_zero]
      exact hcell1 i hi j hj k hk
    · obtain ⟨hr, hdt⟩ := hrange hgr
      have hgpos : 0 < o.grade := by
        rcases Limgrad.enforce_ok hlim with ⟨h0', -, -⟩ | ⟨hpos, -, -⟩
        · exact absurd h0' hgr
        · exact hpos
      have he : 0 ≤ bb'.zLen / d0 := div_nonneg (zLen_nonneg hb hbb) (by positivity)
      -- the first run converges
      have hup : AllNodes d0 d1 d2 fun i j k => cell1 i j k ≤ o.hmax := by
        intro i hi j hj k hk
        obtain ⟨a1, a2, a3, a4, a5⟩ := hst i hi j hj k hk
        rcases courant_ok hc with ⟨-, rfl⟩ | ⟨hcr, hd, hso, e⟩
        · exact a2
        · rw [e, courant_max hdim (lt_of_lt_of_le hp a1) hcr hso]
          rcases hdt with hdt | hdt
          · exact absurd hdt hd.ne'
          · exact max_le a2 (hdt i hi j hj k hk)
      have hlo : AllNodes d0 d1 d2 fun i j k => o.hmin ≤ cell1 i j k := by
        intro i hi j hj k hk
        obtain ⟨a1, a2, a3, a4, a5⟩ := hst i hi j hj k hk
        exact a1.trans a3
      obtain ⟨i', hi', j', hj', k', hk', e⟩ := amin_attained cell1 h0 h1 h2
      have hmin : IsMin d0 d1 d2 cell1 (amin d0 d1 d2 cell1) :=
        ⟨fun p hp => amin_le cell1 hp.1 hp.2.1 hp.2.2, (i', j', k'), ⟨hi', hj', hk'⟩, e.symm⟩
      have hma : o.hmin ≤ amin d0 d1 d2 cell1 := le_amin cell1 h0 h1 h2 hlo
      have hmM : amin d0 d1 d2 cell1 ≤ o.hmax := (amin_le cell1 h0 h1 h2).trans (hup 0 h0 0 h1 0 h2)
      obtain ⟨R, hR, -⟩ := Limgrad.C03_shipped (M := o.hmax) (elen := bb'.zLen / d0) (grade := o.grade) hs he hmin
        (hp.le.trans hma) hgpos (fun p hp => hup _ hp.1 _ hp.2.1 _ hp.2.2) (by rw [hz]; linarith)
      rw [hR] at hlim
      cases hlim
      intro i hi j hj k hk
      obtain ⟨q, hq, -, hlow⟩ := Limgrad.C92_lower (p := (i, j, k)) he hlim' ⟨hi, hj, hk⟩
      have htol : (0 : K) ≤ amin d0 d1 d2 cell1 * seps := mul_nonneg (hp.le.trans hma) hs
      have hd : (gdist (i, j, k) q : K) ≤ diameter d0 d1 d2 := by
        exact_mod_cast Limgrad.gdist_le (p := (i, j, k)) ⟨hi, hj, hk⟩ hq
      have t1 : (gdist (i, j, k) q : K) * (amin d0 d1 d2 cell1 * seps) ≤
          diameter d0 d1 d2 * (o.hmax * seps) :=
        mul_le_mul hd (mul_le_mul_of_nonneg_right hmM hs) htol (by positivity)
      have hA := hcell1 q.1 hq.1 q.2.1 hq.2.1 q.2.2 hq.2.2
      rw [tolerance, if_neg hgr]
      simp only [at3] at hlow
      rcases eq_or_ne o'.grade 0 with hg0 | hg0
      · -- no gradation in the coarser call
        have ec' : cell2' = cell1' := by
          rcases Limgrad.enforce_ok hlim' with ⟨-, e, -⟩ | ⟨hpos, -, -⟩
          · exact e
          · exact absurd hg0 hpos.ne'
        rw [ec']
        have := (Limgrad.C01_gradation_only_refines hs he hmin (hp.le.trans hma) hR (i, j, k) ⟨hi, hj, hk⟩).2
        simp only [at3] at this
        have h3 := hcell1 i hi j hj k hk
        have h4 : (0 : K) ≤ diameter d0 d1 d2 * (o.hmax * seps) :=
          mul_nonneg (by positivity) (mul_nonneg (hp.le.trans hle) hs)
        linarith
      · have hgg : o.grade ≤ o'.grade := by
          rcases hfin.grade with e | ⟨-, h | h⟩
          · exact e.le
          · exact h
          · exact absurd h hg0
        have hupq := Limgrad.C92_upper hs he hmin (hp.le.trans hma) hgpos.ne' hR (p := (i, j, k)) ⟨hi, hj, hk⟩ hq
        simp only [at3] at hupq
        have t2 : (gdist (i, j, k) q : K) * (bb'.zLen / d0 * o.grade) ≤
            (gdist (i, j, k) q : K) * (bb'.zLen / d0 * o'.grade) :=
          mul_le_mul_of_nonneg_left (mul_le_mul_of_nonneg_left hgg he) (by positivity)
        linarith
  -- padding
  have hshape : out.d0 = out'.d0 ∧ out.d1 = out'.d1 ∧ out.d2 = out'.d2 ∧ out.bbox = out'.bbox := by
    rw [← hfin.pad, ← hfin.style] at hpad'
    unfold buildPad at hpad hpad'
    split_ifs at hpad hpad' with g1 g2
    · cases hps : parseStyle o.padStyle with
      | error e => rw [hps] at hpad; cases hpad
      | ok st =>
        rw [hps] at hpad hpad'
        cases bb' with
        | two => simp only [Except.ok.injEq] at hpad hpad'; subst hpad hpad'; exact ⟨rfl, rfl, rfl, rfl⟩
        | three => simp only [Except.ok.injEq] at hpad hpad'; subst hpad hpad'; exact ⟨rfl, rfl, rfl, rfl⟩
    · cases hpad; cases hpad'; exact ⟨rfl, rfl, rfl, rfl⟩
  refine ⟨hshape.1, hshape.2.1, hshape.2.2.1, hshape.2.2.2, ?_⟩
  set T := tolerance seps d0 d1 d2 o with hT
  rcases buildPad_ok hpad with ⟨hz0, rfl⟩ | ⟨hzp, st, b0, b1, b2, hps, f0, f1, f2, fc, -⟩
  · rcases buildPad_ok hpad' with ⟨-, rfl⟩ | ⟨hzp, -⟩
    · exact hcell2
    · rw [← hfin.pad, hz0] at hzp; exact absurd hzp (lt_irrefl _)
  · rcases buildPad_ok hpad' with ⟨hz0, -⟩ | ⟨-, st', b0', b1', b2', hps', f0', f1', f2', fc', -⟩
    · rw [← hfin.pad] at hz0; exact absurd hz0 hzp.ne'
    · rw [← hfin.style, hps] at hps'
      cases hps'
      have eb : b0' = b0 ∧ b1' = b1 ∧ b2' = b2 := by
        obtain ⟨s0, s1, s2, -⟩ := hshape
        omega
      obtain ⟨rfl, rfl, rfl⟩ := eb
      intro i hi j hj k hk
      rw [f0] at hi; rw [f1] at hj; rw [f2] at hk
      have hmx : (1 : K) * amax d0 d1 d2 cell2 ≤ 1 * (1 * amax d0 d1 d2 cell2' + 1 * T) := by
        obtain ⟨i', hi', j', hj', k', hk', e⟩ := amax_attained cell2 h0 h1 h2
        rw [e]
        have := hcell2 i' hi' j' hj' k' hk'
        have := le_amax cell2' hi' hj' hk'
        linarith
      have := pad3_lin_le (st := st) (b0 := b0') (b1 := b1') (b2 := b2') (A := cell2)
        (B := fun i j k => 1 * cell2' i j k + 1 * T) hmx h0 h1 h2
        (fun i hi j hj k hk => by have := hcell2 i hi j hj k hk; linarith) hi hj hk
      rw [pad3_lin st 1 1 _ T d0 d1 d2 b0' b1' b2' cell2' (fun _ _ _ => T), pad3_const] at this
      rw [fc, fc']
      linarith

/-- **C99.** If the options `o` ask for at least as fine a mesh as `o'`, then the two sizing functions have the
same grid and bbox, and no size of the first is larger than that of the second by more than the tolerance of the
limiter (nothing at all without gradation). With gradation the size range has to be at most 9999 steps. -/
theorem C99_finer {seps : K} {d0 d1 d2 : ℕ} {o o' : Opts K} {names names' : List String}
    {bbox : List K} {vp0 V : Arr K} {out out' : Out K} (hfin : Finer o o')
    (h0 : 0 < d0) (h1 : 0 < d1) (h2 : 0 < d2) (hs : 0 ≤ seps) (hb : OrderedBbox bbox)
    (hp : 0 < o.hmin) (hle : o.hmin ≤ o.hmax) (hle' : o'.hmin ≤ o'.hmax)
    (hf : 0 < o'.freq) (hw : 0 ≤ o'.wl) (hV : Prepared d0 d1 d2 o vp0 V)
    (hVp : AllNodes d0 d1 d2 fun i j k => 0 ≤ V i j k)
    (hrange : o.grade ≠ 0 → o.hmax - o.hmin ≤ 9999 * (depthOf bbox / d0 * o.grade) ∧
      (o.dt = 0 ∨ AllNodes d0 d1 d2 fun i j k => V i j k * o.dt * o.spaceOrder / o.crMax ≤ o.hmax))
    (h : sizing Limgrad.shippedCap seps d0 d1 d2 o names bbox vp0 = .ok (some out))
    (h' : sizing Limgrad.shippedCap seps d0 d1 d2 o' names' bbox vp0 = .ok (some out')) :
    out.d0 = out'.d0 ∧ out.d1 = out'.d1 ∧ out.d2 = out'.d2 ∧ out.bbox = out'.bbox ∧
    AllNodes out.d0 out.d1 out.d2 fun i j k =>
      out.cell i j k ≤ out'.cell i j k + tolerance seps d0 d1 d2 o := by
  have hV' : Prepared d0 d1 d2 o' vp0 V := by
    unfold Prepared at hV ⊢
    rw [← hfin.units, ← hfin.water]; exact hV
  exact finer_core hfin h0 h1 h2 hs hb hp hle hle' hf hw hV hV' (.inl rfl) hVp hrange h h'

/-- From the nodes to every point of the bbox. -/
theorem nodes_everywhere {out out' : Out K} {T : K} (hn : out.d0 = out'.d0 ∧ out.d1 = out'.d1 ∧ out.d2 = out'.d2 ∧ out.bbox = out'.bbox ∧
      AllNodes out.d0 out.d1 out.d2 fun i j k => out.cell i j k ≤ out'.cell i j k + T)
    (hpr : Interp.Proper out) {x : List K} (hin : Interp.InBbox out.bbox x) : Interp.sizeEval out x ≤ Interp.sizeEval out' x + T := by
  obtain ⟨e0, e1, e2, eb, hall⟩ := hn
  obtain ⟨m0, m1, m2, mc, mv, mb⟩ := out
  obtain ⟨n0, n1, n2, nc, nv, nb⟩ := out'
  simp only at e0 e1 e2 eb hall
  subst e0 e1 e2 eb
  have hD := (Interp.C19_size_function_bounds ⟨m0, m1, m2, fun i j k => mc i j k - nc i j k, mv, mb⟩ hpr
    (amin m0 m1 m2 fun i j k => mc i j k - nc i j k) T (fun i hi j hj k hk =>
      ⟨amin_le (fun i j k => mc i j k - nc i j k) hi hj hk, by
        have := hall i hi j hj k hk
        simp only; linarith⟩) x hin).2
  have e : Interp.ofArr (fun i j k => mc i j k - nc i j k) =
      fun js => Interp.ofArr mc js - Interp.ofArr nc js := by
    funext js
    unfold Interp.ofArr
    split <;> simp
  simp only [Interp.sizeEval] at hD ⊢
  rw [e, Interp.interp_sub] at hD
  linarith

/-- **C99, everywhere.** Under the same hypotheses the same holds of the sizing functions at every point of
their bbox. -/
theorem C99_everywhere {seps : K} {d0 d1 d2 : ℕ} {o o' : Opts K} {names names' : List String}
    {bbox : List K} {vp0 V : Arr K} {out out' : Out K} (hfin : Finer o o')
    (h0 : 0 < d0) (h1 : 0 < d1) (h2 : 0 < d2) (hs : 0 ≤ seps) (hb : OrderedBbox bbox)
    (hp : 0 < o.hmin) (hle : o.hmin ≤ o.hmax) (hle' : o'.hmin ≤ o'.hmax)
    (hf : 0 < o'.freq) (hw : 0 ≤ o'.wl) (hV : Prepared d0 d1 d2 o vp0 V)
    (hVp : AllNodes d0 d1 d2 fun i j k => 0 ≤ V i j k)
    (hrange : o.grade ≠ 0 → o.hmax - o.hmin ≤ 9999 * (depthOf bbox / d0 * o.grade) ∧
      (o.dt = 0 ∨ AllNodes d0 d1 d2 fun i j k => V i j k * o.dt * o.spaceOrder / o.crMax ≤ o.hmax))
    (h : sizing Limgrad.shippedCap seps d0 d1 d2 o names bbox vp0 = .ok (some out))
    (h' : sizing Limgrad.shippedCap seps d0 d1 d2 o' names' bbox vp0 = .ok (some out'))
    (hpr : Interp.Proper out) {x : List K} (hin : Interp.InBbox out.bbox x) :
    Interp.sizeEval out x ≤ Interp.sizeEval out' x + tolerance seps d0 d1 d2 o := 
  nodes_everywhere (C99_finer hfin h0 h1 h2 hs hb hp hle hle' hf hw hV hVp hrange h h') hpr hin

/-- **C99, no criterion.** With neither `wl` nor `grad` (the defaults) and without a timestep the sizing function
is `hmin` everywhere, so switching on the first of the two criteria can only coarsen the mesh. -/
theorem C99_no_criterion {imax : ℕ} {seps : K} {d0 d1 d2 : ℕ} {o : Opts K} {names : List String}
    {bbox : List K} {vp0 : Arr K} {out : Out K}
    (h0 : 0 < d0) (h1 : 0 < d1) (h2 : 0 < d2) (hs : 0 ≤ seps) (hb : OrderedBbox bbox)
    (hp : 0 < o.hmin) (hle : o.hmin ≤ o.hmax) (hw : o.wl = 0) (hg : o.grad = 0) (hdt : o.dt = 0)
    (h : sizing imax seps d0 d1 d2 o names bbox vp0 = .ok (some out)) :
    AllNodes out.d0 out.d1 out.d2 fun i j k => out.cell i j k = o.hmin := by
  have hlow := C07_hmin_lower_bound h0 h1 h2 hs hb hp hle h
  obtain ⟨vp, bb, req, cell, cell1, cell2, hvp, hbb, -, hreq, hf, hc, hgd, hpad⟩ := sizing_some h
  have hst := cell_stages h0 h1 h2 hs hb hp hle hbb hf hc hgd
  have hreq' : req = fun _ _ _ => .fin o.hmin := by
    unfold requested at hreq
    rw [if_neg (by rw [hw, hg]; simp)] at hreq
    cases hreq; rfl
  have hcells : AllNodes d0 d1 d2 fun i j k => cell2 i j k ≤ o.hmin := by
    intro i hi j hj k hk
    obtain ⟨a1, a2, a3, a4, a5⟩ := hst i hi j hj k hk
    have hfin := finite_some hf hi hj hk
    rw [hreq'] at hfin
    simp only [clamp_fin, max_self, min_eq_right hle] at hfin
    have e : o.hmin = cell i j k := by injection hfin
    rcases courant_ok hc with ⟨-, rfl⟩ | ⟨-, hd, -, -⟩
    · rw [e]; exact a5
    · exact absurd hdt hd.ne'
  rcases buildPad_ok hpad with ⟨-, rfl⟩ | ⟨-, st, b0, b1, b2, -, f0, f1, f2, fc, -⟩
  · intro i hi j hj k hk
    exact le_antisymm (hcells i hi j hj k hk) (hlow i hi j hj k hk)
  · intro i hi j hj k hk
    refine le_antisymm ?_ (hlow i hi j hj k hk)
    rw [f0] at hi; rw [f1] at hj; rw [f2] at hk
    have hmx : (1 : K) * amax d0 d1 d2 cell2 ≤ 1 * o.hmin := by
      rw [one_mul, one_mul]; exact amax_le _ h0 h1 h2 hcells
    have := pad3_lin_le (st := st) (b0 := b0) (b1 := b1) (b2 := b2) (A := cell2)
      (B := fun _ _ _ => o.hmin) hmx h0 h1 h2
      (fun i hi j hj k hk => by have := hcells i hi j hj k hk; linarith) hi hj hk
    rw [pad3_const, one_mul, one_mul] at this
    rw [fc]; exact this

/-! ### Example -/

/-- The coarser options: 5 cells per wavelength at 2 Hz, `hmin = 1`, `hmax = 20`, no gradation, padding by a ramp. -/
def coarseOpts : Opts ℚ :=
  { Opts.default with hmin := 1, hmax := 20, wl := 5, freq := 2, domainPad := 1, padStyle := "linear_ramp" }

/-- The finer options: 10 cells per wavelength, `hmax = 10`, and gradation 1 switched on. -/
def fineOpts : Opts ℚ :=
  { Opts.default with hmin := 1, hmax := 10, wl := 10, freq := 2, grade := 1, domainPad := 1, padStyle := "linear_ramp" }

/-- Velocities 40 in the top row of nodes, 100 and 160 below. -/
def monoV : Arr ℚ := fun i _ _ => 40 + 60 * i

theorem fine_finer : Finer fineOpts coarseOpts where
  water := rfl
  units := rfl
  window := rfl
  order := rfl
  cr := rfl
  style := rfl
  pad := rfl
  hmin := by norm_num [fineOpts, coarseOpts]
  hmax := by norm_num [fineOpts, coarseOpts]
  freq := by norm_num [fineOpts, coarseOpts]
  wl := by norm_num [fineOpts, coarseOpts]
  grad := .inl rfl
  dt := le_rfl
  grade := .inr ⟨by norm_num [fineOpts], .inr rfl⟩
  switchWl := fun h => absurd h (by norm_num [coarseOpts])
  switchGrad := fun _ h => absurd rfl h

/-- The hypotheses are met: 3 x 2 nodes on a 3 x 2 box. Sizes 4, 10, 16 become 2, 3, 4. -/
example : ∃ out out', sizing Limgrad.shippedCap (1 / 67108864) 3 2 1 fineOpts [] [0, 3, 0, 2] monoV = .ok (some out) ∧
    sizing Limgrad.shippedCap (1 / 67108864) 3 2 1 coarseOpts [] [0, 3, 0, 2] monoV = .ok (some out') ∧
    out.cell 1 1 0 = 2 ∧ out.cell 3 1 0 = 4 ∧ out'.cell 1 1 0 = 4 ∧ out'.cell 3 1 0 = 16 ∧
    AllNodes out.d0 out.d1 out.d2 fun i j k =>
      out.cell i j k ≤ out'.cell i j k + tolerance (1 / 67108864) 3 2 1 fineOpts := by
  have key : okAnd (K := ℚ) (sizing Limgrad.shippedCap (1 / 67108864) 3 2 1 fineOpts [] [0, 3, 0, 2] monoV)
      (fun out => decide (out.cell 1 1 0 = 2 ∧ out.cell 3 1 0 = 4)) = true := by decide +kernel
  have key' : okAnd (K := ℚ) (sizing Limgrad.shippedCap (1 / 67108864) 3 2 1 coarseOpts [] [0, 3, 0, 2] monoV)
      (fun out => decide (out.cell 1 1 0 = 4 ∧ out.cell 3 1 0 = 16)) = true := by decide +kernel
  obtain ⟨out, e1, e2⟩ := okAnd_spec key
  obtain ⟨out', e1', e2'⟩ := okAnd_spec key'
  have e2 := of_decide_eq_true e2
  have e2' := of_decide_eq_true e2'
  refine ⟨out, out', e1, e1', e2.1, e2.2, e2'.1, e2'.2, ?_⟩
  refine (C99_finer (V := monoV) fine_finer (by norm_num) (by norm_num) (by norm_num) (by norm_num)
    (by norm_num [OrderedBbox]) (by norm_num [fineOpts]) (by norm_num [fineOpts]) (by norm_num [coarseOpts])
    (by norm_num [coarseOpts]) (by norm_num [coarseOpts]) ?_ ?_ ?_ e1 e1').2.2.2.2
  · have e : convertUnits "m-s" monoV = monoV := by
      unfold convertUnits
      rw [if_neg (by decide), if_neg (by decide)]
    have g : waterGuard 3 2 1 monoV = false := by decide +kernel
    change replaceWater 3 2 1 _ (convertUnits "m-s" monoV) = _
    rw [e]
    simp only [replaceWater, g]
    rfl
  · intro i _ j _ k _
    simp only [monoV]; positivity
  · intro _
    exact ⟨by norm_num [fineOpts, depthOf], .inl rfl⟩

end SM.Sizing
