import Verif.Props.SizingMirror

/-!
# C120: a 3-D model that does not vary in y gets the sizes of the 2-D model

A call of `get_sizing_function_from_segy` with a 2-D velocity array and one with the 3-D array that repeats it `d2` times along the third axis.
-/

namespace SM.Sizing

open Limgrad (InGrid IsMin at3 diameter gdist)

/-- `A'` repeats the 2-D array `A` along the third axis. -/
def Extruded {α : Type} (d0 d1 d2 : ℕ) (A A' : Arr α) : Prop :=
  ∀ i < d0, ∀ j < d1, ∀ k < d2, A' i j k = A i j 0

section
variable {K : Type} [Field K] [LinearOrder K] [IsStrictOrderedRing K] [FloorSemiring K]

set_option linter.unusedSectionVars false

theorem ufilt1_eq_const {w n : ℕ} (hn : 0 < n) {f : ℕ → K} {c : K} (h : ∀ x < n, f x = c) {i : ℕ} (hi : i < n) :
    ufilt1 w n f i = c := by
  unfold ufilt1
  split_ifs with hw
  · exact h i hi
  · rw [Finset.sum_congr rfl fun j _ => h _ (reflect_lt hn _), Finset.sum_const, Finset.card_range, nsmul_eq_mul]
    have : (w : K) ≠ 0 := by
      have : 0 < w := by omega
      positivity
    field_simp

theorem ufilt_ext {d0 d1 d2 : ℕ} {w : ℕ × ℕ × ℕ} {A A' : Arr K} (h : Extruded d0 d1 d2 A A') :
    Extruded d0 d1 d2 (ufilt d0 d1 1 w A) (ufilt d0 d1 d2 w A') := by
  intro i hi j hj k hk
  simp only [ufilt]
  set c := ufilt1 w.2.1 d1 (fun j' => ufilt1 w.1 d0 (fun i' => A i' j' 0) i) j with hc
  rw [ufilt1_eq_const (c := c) (by omega) (fun k' hk' => by
      rw [hc]
      exact ufilt1_congr (by omega) (fun j' hj' => ufilt1_congr (by omega) (fun i' hi' => h i' hi' j' hj' k' hk') hi) hj) hk,
    ufilt1_eq_const (c := c) (by omega) (fun k' hk' => by
      have : k' = 0 := by omega
      subst this; rfl) (by omega)]

theorem amax_ext {d0 d1 d2 : ℕ} (h0 : 0 < d0) (h1 : 0 < d1) (h2 : 0 < d2) {A A' : Arr K}
    (h : Extruded d0 d1 d2 A A') : amax d0 d1 d2 A' = amax d0 d1 1 A := by
  apply le_antisymm
  · exact amax_le _ h0 h1 h2 fun i hi j hj k hk => by
      rw [h i hi j hj k hk]; exact le_amax A hi hj one_pos
  · refine amax_le _ h0 h1 one_pos fun i hi j hj k hk => ?_
    have : k = 0 := by omega
    subst this
    rw [← h i hi j hj 0 h2]; exact le_amax A' hi hj h2

theorem amin_ext {d0 d1 d2 : ℕ} (h0 : 0 < d0) (h1 : 0 < d1) (h2 : 0 < d2) {A A' : Arr K}
    (h : Extruded d0 d1 d2 A A') : amin d0 d1 d2 A' = amin d0 d1 1 A := by
  apply le_antisymm
  · refine le_amin _ h0 h1 one_pos fun i hi j hj k hk => ?_
    have : k = 0 := by omega
    subst this
    rw [← h i hi j hj 0 h2]; exact amin_le A' hi hj h2
  · exact le_amin _ h0 h1 h2 fun i hi j hj k hk => by
      rw [h i hi j hj k hk]; exact amin_le A hi hj one_pos

theorem convertUnits_ext {d0 d1 d2 : ℕ} (u : String) {A A' : Arr K} (h : Extruded d0 d1 d2 A A') :
    Extruded d0 d1 d2 (convertUnits u A) (convertUnits u A') := by
  intro i hi j hj k hk
  unfold convertUnits
  split_ifs <;> simp only [h i hi j hj k hk]

theorem replaceWater_ext {d0 d1 d2 : ℕ} (h2 : 0 < d2) (w : Option K) {A A' : Arr K} (h : Extruded d0 d1 d2 A A') :
    Same (Extruded d0 d1 d2) (replaceWater d0 d1 1 w A) (replaceWater d0 d1 d2 w A') := by
  have hg : waterGuard d0 d1 d2 A' = waterGuard d0 d1 1 A := by
    rw [Bool.eq_iff_iff, waterGuard_iff, waterGuard_iff]
    constructor
    · rintro ⟨i, hi, j, hj, k, hk, hne, hv⟩
      exact ⟨i, hi, j, hj, 0, one_pos, hne, by rw [← h i hi j hj k hk]; exact hv⟩
    · rintro ⟨i, hi, j, hj, k, hk, hne, hv⟩
      have : k = 0 := by omega
      subst this
      exact ⟨i, hi, j, hj, 0, h2, hne, by rw [h i hi j hj 0 h2]; exact hv⟩
  unfold replaceWater
  rw [hg]
  split_ifs with g1
  · cases w with
    | none => rfl
    | some w =>
      simp only
      split_ifs
      · rfl
      · intro i hi j hj k hk
        simp only [fillWater, h i hi j hj k hk]
  · exact h

theorem gradientSizing_ext {d0 d1 d2 : ℕ} (h0 : 0 < d0) (h1 : 0 < d1) (h2 : 0 < d2)
    {w : ℕ × ℕ × ℕ} (grad : K) {A A' : Arr K} (h : Extruded d0 d1 d2 A A') :
    Same (Extruded d0 d1 d2) (gradientSizing d0 d1 1 w A grad) (gradientSizing d0 d1 d2 w A' grad) := by
  have hv : Extruded d0 d1 d2 (winVar d0 d1 1 w A) (winVar d0 d1 d2 w A') := by
    intro i hi j hj k hk
    have e1 := ufilt_ext (w := w) h i hi j hj k hk
    have e2 := ufilt_ext (w := w) (A := fun i j k => A i j k ^ 2) (A' := fun i j k => A' i j k ^ 2)
      (fun i hi j hj k hk => by simp only [h i hi j hj k hk]) i hi j hj k hk
    simp only [winVar, e1, e2]
  unfold gradientSizing
  simp only
  rw [amax_ext h0 h1 h2 hv]
  split_ifs
  · intro i hi j hj k hk; rfl
  · rfl
  · intro i hi j hj k hk; rfl
  · have hn : Extruded d0 d1 d2
        (fun i j k => winVar d0 d1 1 w A i j k / amax d0 d1 1 (winVar d0 d1 1 w A))
        (fun i j k => winVar d0 d1 d2 w A' i j k / amax d0 d1 1 (winVar d0 d1 1 w A)) :=
      fun i hi j hj k hk => by simp only [hv i hi j hj k hk]
    rw [amin_ext h0 h1 h2 hn]
    intro i hi j hj k hk
    simp only [hv i hi j hj k hk]

theorem requested_ext {d0 d1 d2 : ℕ} (h0 : 0 < d0) (h1 : 0 < d1) (h2 : 0 < d2)
    {o : Opts K} {A A' : Arr K} (h : Extruded d0 d1 d2 A A') :
    Same (Extruded d0 d1 d2) (requested d0 d1 1 o A) (requested d0 d1 d2 o A') := by
  have hg := gradientSizing_ext h0 h1 h2 (w := o.window) o.grad h
  have hl : Same (Extruded d0 d1 d2) (wavelengthSizing A o.wl o.freq) (wavelengthSizing A' o.wl o.freq) := by
    unfold wavelengthSizing
    split_ifs
    · intro i hi j hj k hk; rfl
    · rfl
    · rfl
    · intro i hi j hj k hk
      simp only [h i hi j hj k hk]
  unfold requested
  split_ifs
  · revert hl hg
    cases wavelengthSizing A o.wl o.freq <;> cases wavelengthSizing A' o.wl o.freq <;>
      cases gradientSizing d0 d1 1 o.window A o.grad <;> cases gradientSizing d0 d1 d2 o.window A' o.grad <;>
      simp only [Same] <;> intro hl hg <;> first | exact hl | exact hg | exact hl.elim | exact hg.elim | skip
    intro i hi j hj k hk
    simp only [hl i hi j hj k hk, hg i hi j hj k hk]
  · intro i hi j hj k hk; rfl

theorem finite_ext {d0 d1 d2 : ℕ} (h2 : 0 < d2) {A A' : Arr (Fl K)} (h : Extruded d0 d1 d2 A A') :
    (finite d0 d1 1 A = none ∧ finite d0 d1 d2 A' = none) ∨
    ∃ B B', finite d0 d1 1 A = some B ∧ finite d0 d1 d2 A' = some B' ∧ Extruded d0 d1 d2 B B' := by
  cases hA : finite d0 d1 1 A with
  | none =>
    left
    refine ⟨rfl, ?_⟩
    cases hA' : finite d0 d1 d2 A' with
    | none => rfl
    | some B' =>
      obtain ⟨i, hi, j, hj, k, hk, hne⟩ := finite_none hA
      have : k = 0 := by omega
      subst this
      have := finite_some hA' hi hj h2
      rw [h i hi j hj 0 h2] at this
      exact absurd this (hne _)
  | some B =>
    right
    cases hA' : finite d0 d1 d2 A' with
    | none =>
      obtain ⟨i, hi, j, hj, k, hk, hne⟩ := finite_none hA'
      have := finite_some hA hi hj one_pos
      rw [← h i hi j hj k hk] at this
      exact absurd this (hne _)
    | some B' =>
      refine ⟨B, B', rfl, rfl, fun i hi j hj k hk => ?_⟩
      have e1 := finite_some hA' hi hj hk
      have e2 := finite_some hA hi hj one_pos
      rw [h i hi j hj k hk, e2] at e1
      injection e1 with e; exact e.symm

/-- The number of dimensions cancels in the Courant stage. -/
theorem courant_dim {n : ℕ} (hn : 0 < n) (V C : Arr K) (crMax dt so : K) : courant n V C crMax dt so = courant 1 V C crMax dt so := by
  have hn' : (0 : K) < n := by positivity
  unfold courant
  split_ifs
  · rfl
  · rfl
  · rfl
  · rfl
  · simp only
    congr 1
    funext i j k
    have e1 : V i j k * dt / (n * C i j k) = (V i j k * dt / C i j k) / n := by rw [div_div, mul_comm (n : K)]
    have e2 : crMax / (n * so) = (crMax / so) / n := by rw [div_div, mul_comm (n : K)]
    have e3 : (n : K) * (crMax / so / n) = crMax / so := by field_simp
    simp only [e1, e2, e3, Nat.cast_one, one_mul, gt_iff_lt]
    simp only [div_lt_div_iff_of_pos_right hn']

theorem courant_ext {d0 d1 d2 : ℕ} (crMax dt so : K) {A A' C C' : Arr K}
    (h : Extruded d0 d1 d2 A A') (hc : Extruded d0 d1 d2 C C') :
    Same (Extruded d0 d1 d2) (courant 2 A C crMax dt so) (courant 3 A' C' crMax dt so) := by
  rw [courant_dim (n := 2) (by norm_num), courant_dim (n := 3) (by norm_num)]
  unfold courant
  split_ifs
  · exact hc
  · rfl
  · rfl
  · rfl
  · intro i hi j hj k hk
    simp only [h i hi j hj k hk, hc i hi j hj k hk]

/-- The limiter on a repeated array, up to its tolerance. -/
theorem limiter_ext {imax imax' d0 d1 d2 : ℕ} {seps grade elen m m' M : K} {A A' R R' : Arr K} (h2 : 0 < d2) (hs : 0 ≤ seps) (he : 0 ≤ elen)
    (hm : IsMin d0 d1 1 A m) (hm0 : 0 ≤ m) (hmM : m ≤ M) (hm' : IsMin d0 d1 d2 A' m') (hm0' : 0 ≤ m') (hmM' : m' ≤ M) (hg : grade ≠ 0)
    (hA : Extruded d0 d1 d2 A A') (h : Limgrad.enforceGradation imax d0 d1 1 seps A grade elen = .ok (R, true))
    (h' : Limgrad.enforceGradation imax' d0 d1 d2 seps A' grade elen = .ok (R', true)) {i j k : ℕ} (hi : i < d0) (hj : j < d1) (hk : k < d2) :
    |R' i j k - R i j 0| ≤ diameter d0 d1 d2 * (M * seps) := by
  have hgp : 0 < grade := by
    rcases Limgrad.enforce_ok h with ⟨h0', -, -⟩ | ⟨hpos, -, -⟩
    · exact absurd h0' hg
    · exact hpos
  have hst : 0 ≤ elen * grade := mul_nonneg he hgp.le
  have hMs : 0 ≤ M * seps := mul_nonneg (hm0.trans hmM) hs
  have bound : ∀ {x : K} {n : ℕ}, 0 ≤ x → x ≤ M → n ≤ diameter d0 d1 d2 → (n : K) * (x * seps) ≤ diameter d0 d1 d2 * (M * seps) := by
    intro x n hx hxM hn
    have e : (n : K) ≤ diameter d0 d1 d2 := by exact_mod_cast hn
    exact mul_le_mul e (mul_le_mul_of_nonneg_right hxM hs) (mul_nonneg hx hs) (by positivity)
  have hp : InGrid d0 d1 1 (i, j, 0) := ⟨hi, hj, one_pos⟩
  have hp' : InGrid d0 d1 d2 (i, j, k) := ⟨hi, hj, hk⟩
  rw [abs_le]
  constructor
  · obtain ⟨q, hq, -, hlow⟩ := Limgrad.C92_lower he h' hp'
    have hq2 : InGrid d0 d1 1 (q.1, q.2.1, 0) := ⟨hq.1, hq.2.1, one_pos⟩
    have hup := Limgrad.C92_upper hs he hm hm0 hg h hp hq2
    have eA := hA q.1 hq.1 q.2.1 hq.2.1 q.2.2 hq.2.2
    have hd : gdist (i, j, 0) (q.1, q.2.1, 0) ≤ gdist (i, j, k) q := by simp only [gdist]; omega
    have hd2 : gdist (i, j, 0) (q.1, q.2.1, 0) ≤ diameter d0 d1 d2 := hd.trans (Limgrad.gdist_le hp' hq)
    have hdK : ((gdist (i, j, 0) (q.1, q.2.1, 0) : ℕ) : K) ≤ (gdist (i, j, k) q : ℕ) := by exact_mod_cast hd
    have b := bound hm0 hmM hd2
    have s := mul_le_mul_of_nonneg_right hdK hst
    simp only [at3] at hup hlow
    rw [eA] at hlow
    rw [mul_add] at hup
    linarith
  · obtain ⟨q, hq, -, hlow⟩ := Limgrad.C92_lower he h hp
    have hq0 : q.2.2 = 0 := by have := hq.2.2; omega
    have hq2 : InGrid d0 d1 d2 (q.1, q.2.1, k) := ⟨hq.1, hq.2.1, hk⟩
    have hup := Limgrad.C92_upper hs he hm' hm0' hg h' hp' hq2
    have eA := hA q.1 hq.1 q.2.1 hq.2.1 k hk
    have hd : gdist (i, j, k) (q.1, q.2.1, k) = gdist (i, j, 0) q := by simp only [gdist]; omega
    have b := bound hm0' hmM' (Limgrad.gdist_le hp' hq2)
    simp only [at3, hq0] at hup hlow
    rw [eA, mul_add] at hup
    rw [hd] at hup b
    linarith

/-- Padding a repeated array: inside the range of the model in y, and everywhere in the style `edge`, it is the padded 2-D array. -/
theorem pad3_ext {st : Style} (m : K) {d0 d1 d2 : ℕ} (b0 b1 b2 : ℕ) {A : Arr K} (h2 : 0 < d2) (i j : ℕ) {k : ℕ}
    (hk : st = .edge ∨ (b2 ≤ k ∧ k < b2 + d2)) :
    pad3 st m d0 d1 d2 b0 b1 b2 (fun i j _ => A i j 0) i j k = pad3 st m d0 d1 1 b0 b1 0 A i j 0 := by
  simp only [pad3]
  have e : pad1 st m 1 0 0 (fun k' => pad1 st m d1 b1 b1 (fun j' => pad1 st m d0 b0 0 (fun i' => A i' j' k') i) j) 0 =
      pad1 st m d1 b1 b1 (fun j' => pad1 st m d0 b0 0 (fun i' => A i' j' 0) i) j := by
    simp [pad1]
  rw [e]
  rcases hk with rfl | ⟨hk1, hk2⟩
  · simp only [pad1]
    split_ifs <;> rfl
  · have inner : ∀ (f : ℕ → K), pad1 st m d2 b2 b2 f k = f (k - b2) := fun f => by
      unfold pad1
      rw [if_neg (by omega), if_pos hk2]
    rw [inner]

/-- The range condition: the sizes span at most 9999 steps of the limiter. -/
def WithinRange (d0 d1 d2 : ℕ) (o : Opts K) (depth : K) (V : Arr K) : Prop :=
  o.grade ≠ 0 → o.hmax - o.hmin ≤ 9999 * (depth / d0 * o.grade) ∧
    (o.dt = 0 ∨ AllNodes d0 d1 d2 fun i j k => V i j k * o.dt * o.spaceOrder / o.crMax ≤ o.hmax)

/-- **C120 (on the grid).** The 3-D call on the repeated array returns a grid with the same number of nodes in z and x, padded in y by `b` nodes on
each side; velocities are equal and sizes are equal up to the tolerance of the limiter (exactly, without gradation) at every node within the range
of the model in y, and at every node at all in the pad style `edge`. -/
theorem C120_nodes {seps : K} {d0 d1 d2 : ℕ} {o : Opts K} {names : List String} {z0 z1 x0 x1 y0 y1 : K}
    {vp0 vp0' V : Arr K} {out out' : Out K} (h0 : 0 < d0) (h1 : 0 < d1) (h2 : 0 < d2) (hs : 0 ≤ seps)
    (hz : z0 ≤ z1) (hx : x0 ≤ x1) (hy : y0 ≤ y1) (hp : 0 < o.hmin) (hle : o.hmin ≤ o.hmax)
    (hm : Extruded d0 d1 d2 vp0 vp0') (hV : Prepared d0 d1 1 o vp0 V) (hrange : WithinRange d0 d1 1 o (z1 - z0) V)
    (h : sizing Limgrad.shippedCap seps d0 d1 1 o names [z0, z1, x0, x1] vp0 = .ok (some out))
    (h' : sizing Limgrad.shippedCap seps d0 d1 d2 o names [z0, z1, x0, x1, y0, y1] vp0' = .ok (some out')) :
    out'.d0 = out.d0 ∧ out'.d1 = out.d1 ∧ out.d2 = 1 ∧ ∃ b, out'.d2 = d2 + 2 * b ∧ (o.domainPad = 0 → b = 0) ∧
      ∀ i < out.d0, ∀ j < out.d1, ∀ k < out'.d2, (o.padStyle = "edge" ∨ (b ≤ k ∧ k < b + d2)) →
        out'.vp i j k = out.vp i j 0 ∧ |out'.cell i j k - out.cell i j 0| ≤ tolerance seps d0 d1 d2 o := by
  obtain ⟨vp, bb, req, cell, cell1, cell2, hvp, hbb, -, hreq, hfi, hc, hg, hpad⟩ := sizing_some h
  obtain ⟨vp', bb', req', cell', cell1', cell2', hvp', hbb', -, hreq', hfi', hc', hg', hpad'⟩ := sizing_some h'
  have e1 : V = vp := by unfold Prepared at hV; rw [hV] at hvp; cases hvp; rfl
  subst e1
  cases hbb
  cases hbb'
  have mv : Extruded d0 d1 d2 V vp' := by
    have := replaceWater_ext h2 o.vpWater (convertUnits_ext o.units hm)
    rw [hvp, hvp'] at this; exact this
  have mr : Extruded d0 d1 d2 req req' := by
    have := requested_ext h0 h1 h2 (o := o) mv
    rw [hreq, hreq'] at this; exact this
  have mc : Extruded d0 d1 d2 cell cell' := by
    rcases finite_ext (A := fun i j k => clamp o.hmin o.hmax (req i j k))
      (A' := fun i j k => clamp o.hmin o.hmax (req' i j k)) (d0 := d0) (d1 := d1) (d2 := d2) h2
      (fun i hi j hj k hk => by simp only [mr i hi j hj k hk]) with ⟨e, -⟩ | ⟨B, B', e, e', hB⟩
    · rw [hfi] at e; cases e
    · rw [hfi] at e; rw [hfi'] at e'; cases e; cases e'; exact hB
  have mc1 : Extruded d0 d1 d2 cell1 cell1' := by
    have := courant_ext o.crMax o.dt o.spaceOrder mv mc
    change courant 2 _ _ _ _ _ = _ at hc
    change courant 3 _ _ _ _ _ = _ at hc'
    rw [hc, hc'] at this; exact this
  have hob : OrderedBbox [z0, z1, x0, x1] := ⟨hz, hx⟩
  have hob' : OrderedBbox [z0, z1, x0, x1, y0, y1] := ⟨hz, hx, hy⟩
  have mc2 : AllNodes d0 d1 d2 fun i j k => |cell2' i j k - cell2 i j 0| ≤ tolerance seps d0 d1 d2 o := by
    obtain ⟨c, hlim⟩ := gradation_ok hg
    obtain ⟨c', hlim'⟩ := gradation_ok hg'
    intro i hi j hj k hk
    by_cases hgr : o.grade = 0
    · have ec : cell2 = cell1 := by
        rcases Limgrad.enforce_ok hlim with ⟨-, e, -⟩ | ⟨hpos, -, -⟩
        · exact e
        · exact absurd hgr hpos.ne'
      have ec' : cell2' = cell1' := by
        rcases Limgrad.enforce_ok hlim' with ⟨-, e, -⟩ | ⟨hpos, -, -⟩
        · exact e
        · exact absurd hgr hpos.ne'
      rw [ec, ec', tolerance, if_pos hgr, mc1 i hi j hj k hk, sub_self, abs_zero]
    · obtain ⟨hr, hdt⟩ := hrange hgr
      obtain ⟨hmin, hm0, hmM, hR⟩ := gradation_converged h0 h1 one_pos hs hob hp hle rfl hfi hc hg hgr hr hdt
      obtain ⟨hmin', hm0', hmM', hR'⟩ := gradation_converged h0 h1 h2 hs hob' hp hle rfl hfi' hc' hg' hgr hr
        (hdt.imp id fun r i hi j hj k hk => by
          simp only [mv i hi j hj k hk]
          exact r i hi j hj 0 one_pos)
      have he : 0 ≤ (z1 - z0) / d0 := div_nonneg (sub_nonneg.2 hz) (by positivity)
      rw [tolerance, if_neg hgr]
      exact limiter_ext h2 hs he hmin hm0 hmM hmin' hm0' hmM' hgr mc1 hR hR' hi hj hk
  set T := tolerance seps d0 d1 d2 o with hT
  unfold buildPad at hpad hpad'
  split_ifs at hpad hpad' with g1 g2
  · cases hps : parseStyle o.padStyle with
    | error e => rw [hps] at hpad; cases hpad
    | ok st =>
      rw [hps] at hpad hpad'
      simp only [Except.ok.injEq] at hpad hpad'
      subst hpad hpad'
      refine ⟨rfl, rfl, rfl, padCells o.domainPad (y1 - y0) d2, rfl, fun e => absurd e g2.ne', ?_⟩
      intro i hi j hj k hk hin
      have hin' : st = .edge ∨ (padCells o.domainPad (y1 - y0) d2 ≤ k ∧ k < padCells o.domainPad (y1 - y0) d2 + d2) := by
        refine hin.imp (fun e => ?_) id
        rw [e] at hps
        simp [parseStyle] at hps
        exact hps.symm
      set b0 := padCells o.domainPad (z1 - z0) d0
      set b1 := padCells o.domainPad (x1 - x0) d1
      set b2 := padCells o.domainPad (y1 - y0) d2
      have lhs : ∀ (m : K) (A : Arr K), pad3 st m d0 d1 d2 b0 b1 b2 (fun i j _ => A i j 0) i j k = pad3 st m d0 d1 1 b0 b1 0 A i j 0 :=
        fun m A => pad3_ext m b0 b1 b2 h2 i j hin'
      refine ⟨?_, ?_⟩
      · show pad3 st (amax d0 d1 d2 vp') d0 d1 d2 b0 b1 b2 vp' i j k = pad3 st (amax d0 d1 1 V) d0 d1 1 b0 b1 0 V i j 0
        rw [← lhs, amax_ext h0 h1 h2 mv]
        refine le_antisymm ?_ ?_
        · have := pad3_lin_le (st := st) (a := 1) (b := 1) (m := amax d0 d1 1 V) (m' := amax d0 d1 1 V) (b0 := b0) (b1 := b1) (b2 := b2) (A := vp')
            (B := fun i j _ => V i j 0) le_rfl h0 h1 h2 (fun i hi j hj k hk => by rw [mv i hi j hj k hk]) hi hj hk
          linarith
        · have := pad3_lin_le (st := st) (a := 1) (b := 1) (m := amax d0 d1 1 V) (m' := amax d0 d1 1 V) (b0 := b0) (b1 := b1) (b2 := b2) (B := vp')
            (A := fun i j _ => V i j 0) le_rfl h0 h1 h2 (fun i hi j hj k hk => by rw [mv i hi j hj k hk]) hi hj hk
          linarith
      · show |pad3 st (amax d0 d1 d2 cell2') d0 d1 d2 b0 b1 b2 cell2' i j k - pad3 st (amax d0 d1 1 cell2) d0 d1 1 b0 b1 0 cell2 i j 0| ≤ T
        have hmx : |amax d0 d1 d2 cell2' - amax d0 d1 1 cell2| ≤ T := by
          rw [abs_le]
          constructor
          · obtain ⟨i', hi', j', hj', k', hk', e⟩ := amax_attained cell2 h0 h1 one_pos
            have hk0 : k' = 0 := by omega
            subst hk0
            have := (abs_le.1 (mc2 i' hi' j' hj' 0 h2)).1
            have := le_amax cell2' hi' hj' h2
            rw [e]; linarith
          · obtain ⟨i', hi', j', hj', k', hk', e⟩ := amax_attained cell2' h0 h1 h2
            have := (abs_le.1 (mc2 i' hi' j' hj' k' hk')).2
            have := le_amax cell2 hi' hj' one_pos
            rw [e]; linarith
        obtain ⟨m1, m2⟩ := abs_le.1 hmx
        rw [← lhs, abs_le]
        constructor
        · have := pad3_lin_le (st := st) (a := 1) (b := 1) (m := amax d0 d1 1 cell2) (m' := 1 * amax d0 d1 d2 cell2' + 1 * T) (b0 := b0) (b1 := b1) (b2 := b2)
            (A := fun i j _ => cell2 i j 0) (B := fun i j k => 1 * cell2' i j k + 1 * T) (by linarith) h0 h1 h2
            (fun i hi j hj k hk => by have := (abs_le.1 (mc2 i hi j hj k hk)).1; linarith) hi hj hk
          rw [pad3_lin st 1 1 _ T d0 d1 d2 b0 b1 b2 cell2' (fun _ _ _ => T), pad3_const] at this
          linarith
        · have := pad3_lin_le (st := st) (a := 1) (b := 1) (m := amax d0 d1 d2 cell2') (m' := 1 * amax d0 d1 1 cell2 + 1 * T) (b0 := b0) (b1 := b1) (b2 := b2)
            (A := cell2') (B := fun i j k => 1 * (fun i j _ => cell2 i j 0 : Arr K) i j k + 1 * T) (by linarith) h0 h1 h2
            (fun i hi j hj k hk => by have := (abs_le.1 (mc2 i hi j hj k hk)).2; simp only; linarith) hi hj hk
          rw [pad3_lin st 1 1 _ T d0 d1 d2 b0 b1 b2 (fun i j _ => cell2 i j 0) (fun _ _ _ => T), pad3_const] at this
          linarith
  · cases hpad; cases hpad'
    exact ⟨rfl, rfl, rfl, 0, by simp, fun _ => rfl, fun i hi j hj k hk _ => ⟨mv i hi j hj k hk, mc2 i hi j hj k hk⟩⟩

/-- **C120 (outcome).** The 3-D call on the repeated array raises exactly when the 2-D call raises, with the same exception, and its sizes are numbers
exactly when those of the 2-D call are. -/
theorem C120_same_outcome {imax : ℕ} {seps : K} {d0 d1 d2 : ℕ} {o : Opts K} {names : List String} {z0 z1 x0 x1 y0 y1 : K}
    {vp0 vp0' : Arr K} (h0 : 0 < d0) (h1 : 0 < d1) (h2 : 0 < d2) (hm : Extruded d0 d1 d2 vp0 vp0') :
    Same (fun r r' => r = none ↔ r' = none) (sizing imax seps d0 d1 1 o names [z0, z1, x0, x1] vp0)
      (sizing imax seps d0 d1 d2 o names [z0, z1, x0, x1, y0, y1] vp0') := by
  have hr := replaceWater_ext h2 o.vpWater (convertUnits_ext o.units hm)
  unfold sizing
  cases ha : replaceWater d0 d1 1 o.vpWater (convertUnits o.units vp0) with
  | error e =>
    cases ha' : replaceWater d0 d1 d2 o.vpWater (convertUnits o.units vp0') with
    | error e' => rw [ha, ha'] at hr; exact hr
    | ok V' => rw [ha, ha'] at hr; exact hr.elim
  | ok V =>
  cases ha' : replaceWater d0 d1 d2 o.vpWater (convertUnits o.units vp0') with
  | error e' => rw [ha, ha'] at hr; exact hr.elim
  | ok V' =>
  rw [ha, ha'] at hr
  change Extruded d0 d1 d2 V V' at hr
  simp only [parseBbox]
  cases checkNames names with
  | error e => rfl
  | ok u =>
  have hq := requested_ext h0 h1 h2 (o := o) hr
  simp only
  cases hb : requested d0 d1 1 o V with
  | error e =>
    cases hb' : requested d0 d1 d2 o V' with
    | error e' => rw [hb, hb'] at hq; exact hq
    | ok req' => rw [hb, hb'] at hq; exact hq.elim
  | ok req =>
  cases hb' : requested d0 d1 d2 o V' with
  | error e' => rw [hb, hb'] at hq; exact hq.elim
  | ok req' =>
  rw [hb, hb'] at hq
  change Extruded d0 d1 d2 req req' at hq
  simp only
  have hf := finite_ext (A := fun i j k => clamp o.hmin o.hmax (req i j k))
    (A' := fun i j k => clamp o.hmin o.hmax (req' i j k)) (d0 := d0) (d1 := d1) (d2 := d2) h2
    (fun i hi j hj k hk => by simp only [hq i hi j hj k hk])
  set c0 := (finite d0 d1 1 fun i j k => clamp o.hmin o.hmax (req i j k)).getD fun _ _ _ => 0 with hc0
  set c0' := (finite d0 d1 d2 fun i j k => clamp o.hmin o.hmax (req' i j k)).getD fun _ _ _ => 0 with hc0'
  have hcm : Extruded d0 d1 d2 c0 c0' := by
    rw [hc0, hc0']
    rcases hf with ⟨e, e'⟩ | ⟨B, B', e, e', hB⟩
    · rw [e, e']; intro i hi j hj k hk; rfl
    · rw [e, e']; exact hB
  have hc := courant_ext o.crMax o.dt o.spaceOrder hr hcm
  have d2' : (Bbox.two z0 z1 x0 x1).dim = 2 := rfl
  have d3' : (Bbox.three z0 z1 x0 x1 y0 y1).dim = 3 := rfl
  rw [d2', d3']
  cases hd : courant 2 V c0 o.crMax o.dt o.spaceOrder with
  | error e =>
    cases hd' : courant 3 V' c0' o.crMax o.dt o.spaceOrder with
    | error e' => rw [hd, hd'] at hc; exact hc
    | ok c' => rw [hd, hd'] at hc; exact hc.elim
  | ok c =>
  cases hd' : courant 3 V' c0' o.crMax o.dt o.spaceOrder with
  | error e' => rw [hd, hd'] at hc; exact hc.elim
  | ok c' =>
  have hge : ∀ (n : ℕ) (A : Arr K) (L : K), ∀ e, gradation imax seps d0 d1 n A o.grade L = .error e → e = .gradeNeg := by
    intro n A L e h
    unfold gradation at h
    split at h
    · cases h
    · cases h; rfl
  have hgi : ∀ (n : ℕ) (A : Arr K) (L : K), (∃ e, gradation imax seps d0 d1 n A o.grade L = .error e) ↔ o.grade < 0 := by
    intro n A L
    constructor
    · rintro ⟨e, h⟩
      rw [hge n A L e h] at h
      exact gradation_error.1 ⟨_, h⟩
    · intro h
      exact gradation_error.2 h
  simp only
  cases he : gradation imax seps d0 d1 1 c o.grade ((Bbox.two z0 z1 x0 x1).zLen / d0) with
  | error e =>
    obtain ⟨e', he'⟩ := (hgi d2 c' ((Bbox.three z0 z1 x0 x1 y0 y1).zLen / d0)).2 ((hgi _ _ _).1 ⟨e, he⟩)
    rw [he']
    simp only [Same]
    rw [hge _ _ _ _ he, hge _ _ _ _ he']
  | ok g =>
  cases he' : gradation imax seps d0 d1 d2 c' o.grade ((Bbox.three z0 z1 x0 x1 y0 y1).zLen / d0) with
  | error e' =>
    obtain ⟨e, h⟩ := (hgi 1 c ((Bbox.two z0 z1 x0 x1).zLen / d0)).2 ((hgi _ _ _).1 ⟨e', he'⟩)
    rw [he] at h; cases h
  | ok g' =>
  have hfn : (finite d0 d1 1 fun i j k => clamp o.hmin o.hmax (req i j k)) = none ↔
      (finite d0 d1 d2 fun i j k => clamp o.hmin o.hmax (req' i j k)) = none := by
    rcases hf with ⟨e, e'⟩ | ⟨B, B', e, e', hB⟩ <;> simp [e, e']
  simp only
  unfold buildPad
  split_ifs
  · rfl
  · cases parseStyle o.padStyle with
    | error e => rfl
    | ok st => simpa only [Same, Option.map_eq_none_iff] using hfn
  · simpa only [Same, Option.map_eq_none_iff] using hfn

end
end SM.Sizing

namespace SM.Interp

open Sizing (Out Bbox Extruded)

variable {K : Type} [Field K] [LinearOrder K] [IsStrictOrderedRing K]

theorem seg_const {a b : K} {n : ℕ} (hn : 2 ≤ n) (hab : a < b) {x : K} (h1 : a ≤ x) (h2 : x ≤ b) (c : K) :
    seg (linspace a b n) (fun _ => c) x = c := by
  have hg := linspace_good hn hab
  obtain ⟨i, hi, hx1, hx2⟩ := exists_cell hg (by rw [linspace_first]; exact h1)
    (x := x) (by change x ≤ (linspace a b n).node (n - 1); rw [linspace_last _ _ hn]; exact h2)
  have e1 := step_eq hg hi hx1 hx2 fun _ => c
  unfold seg lin1
  rw [e1]
  ring

/-- **C120 (everywhere).** Without padding or with the pad style `edge`, the 3-D sizing function at `(z, x, y)` is the 2-D sizing function at `(z, x)`
up to the tolerance of the limiter, whatever `y`. -/
theorem C120_everywhere [FloorSemiring K] {seps : K} {d0 d1 d2 : ℕ} {o : Sizing.Opts K} {names : List String} {z0 z1 x0 x1 y0 y1 : K}
    {vp0 vp0' V : Sizing.Arr K} {out out' : Out K} (h0 : 0 < d0) (h1 : 0 < d1) (h2 : 0 < d2) (hs : 0 ≤ seps)
    (hz : z0 ≤ z1) (hx : x0 ≤ x1) (hy : y0 ≤ y1) (hp : 0 < o.hmin) (hle : o.hmin ≤ o.hmax) (hpad : o.domainPad = 0 ∨ o.padStyle = "edge")
    (hm : Extruded d0 d1 d2 vp0 vp0') (hV : Sizing.Prepared d0 d1 1 o vp0 V) (hrange : Sizing.WithinRange d0 d1 1 o (z1 - z0) V)
    (h : Sizing.sizing Limgrad.shippedCap seps d0 d1 1 o names [z0, z1, x0, x1] vp0 = .ok (some out))
    (h' : Sizing.sizing Limgrad.shippedCap seps d0 d1 d2 o names [z0, z1, x0, x1, y0, y1] vp0' = .ok (some out'))
    (hpr : Proper out') {z x y : K} (hin : InBbox out'.bbox [z, x, y]) :
    InBbox out.bbox [z, x] ∧ |sizeEval out' [z, x, y] - sizeEval out [z, x]| ≤ Sizing.tolerance seps d0 d1 d2 o := by
  obtain ⟨a0, a1, a2, b, a3, a4, a5⟩ := Sizing.C120_nodes h0 h1 h2 hs hz hx hy hp hle hm hV hrange h h'
  have hbb : ∃ u0 u1 v0 v1 w0 w1, out.bbox = .two u0 u1 v0 v1 ∧ out'.bbox = .three u0 u1 v0 v1 w0 w1 := by
    obtain ⟨_, bb, _, _, _, _, -, hbb, -, -, -, -, -, hpd⟩ := Sizing.sizing_some h
    obtain ⟨_, bb', _, _, _, _, -, hbb', -, -, -, -, -, hpd'⟩ := Sizing.sizing_some h'
    cases hbb
    cases hbb'
    unfold Sizing.buildPad at hpd hpd'
    split_ifs at hpd hpd' with g1 g2
    · cases hps : Sizing.parseStyle o.padStyle with
      | error e => rw [hps] at hpd; cases hpd
      | ok st =>
        rw [hps] at hpd hpd'
        simp only [Except.ok.injEq] at hpd hpd'
        subst hpd hpd'
        exact ⟨_, _, _, _, _, _, rfl, rfl⟩
    · cases hpd; cases hpd'; exact ⟨_, _, _, _, _, _, rfl, rfl⟩
  obtain ⟨u0, u1, v0, v1, w0, w1, e1, e2⟩ := hbb
  have hall : Sizing.AllNodes out'.d0 out'.d1 out'.d2 fun i j k => |out'.cell i j k - out.cell i j 0| ≤ Sizing.tolerance seps d0 d1 d2 o := by
    intro i hi j hj k hk
    refine (a5 i (by rw [← a0]; exact hi) j (by rw [← a1]; exact hj) k hk ?_).2
    rcases hpad with hpad | hpad
    · right; rw [a4 hpad] at a3 ⊢; omega
    · exact .inl hpad
  have key := sizeEval_close (out := { out' with cell := fun i j _ => out.cell i j 0 }) (out' := out') rfl rfl rfl rfl hall hpr hin
  obtain ⟨c0, c1, c2, cc, cv, cb⟩ := out
  obtain ⟨t0, t1, t2, tc, tv, tb⟩ := out'
  simp only at a0 a1 a2 e1 e2
  subst e1 e2 a0 a1 a2
  obtain ⟨p1, p2, p3, p4, p5, p6⟩ := hin
  refine ⟨⟨p1, p2, p3, p4⟩, ?_⟩
  obtain ⟨n0, n1, q1, q2, q3, n2⟩ := hpr
  simp only at n0 n1 n2
  have e : sizeEval (⟨t0, t1, t2, fun i j _ => cc i j 0, tv, .three u0 u1 v0 v1 w0 w1⟩ : Out K) [z, x, y] = sizeEval (⟨t0, t1, 1, cc, cv, .two u0 u1 v0 v1⟩ : Out K) [z, x] := by
    simp only [sizeEval, axes, interp_two, interp_three, ofArr]
    refine seg_congr n0 q1 p1 p2 fun i _ => seg_congr n1 q2 p3 p4 fun j _ => ?_
    exact seg_const n2 q3 p5 p6 _
  rw [← e]
  exact key

end SM.Interp

namespace SM.Sizing

/-! ### Example -/

/-- Both criteria, a time step, gradation and padding. -/
def extrudeOpts : Opts ℚ :=
  { Opts.default with
    hmin := 1, hmax := 20, wl := 5, freq := 1 / 10, grad := 10, grade := 1, domainPad := 1, dt := 1 / 10 }

/-- The hypotheses are met by the velocities 1, 2, 4 in each row, repeated three times in y, with both criteria, a timestep, gradation and padding. -/
example : ∃ out out', sizing Limgrad.shippedCap (1 / 67108864) 2 3 1 extrudeOpts [] [0, 2, 0, 3] stencilV = .ok (some out) ∧
    sizing Limgrad.shippedCap (1 / 67108864) 2 3 3 extrudeOpts [] [0, 2, 0, 3, 0, 3] stencilV = .ok (some out') ∧
    out.cell 1 1 0 ≠ out.cell 1 3 0 ∧
    ∀ i < out.d0, ∀ j < out.d1, ∀ k < out'.d2, |out'.cell i j k - out.cell i j 0| ≤ tolerance (1 / 67108864) 2 3 3 extrudeOpts := by
  have key : okAnd (K := ℚ) (sizing Limgrad.shippedCap (1 / 67108864) 2 3 1 extrudeOpts [] [0, 2, 0, 3] stencilV)
      (fun out => decide (out.cell 1 1 0 ≠ out.cell 1 3 0)) = true := by decide +kernel
  have hext : Extruded 2 3 3 stencilV stencilV := fun i _ j _ k _ => rfl
  have same := C120_same_outcome (imax := Limgrad.shippedCap) (seps := (1 / 67108864 : ℚ)) (o := extrudeOpts) (names := []) (z0 := 0) (z1 := 2) (x0 := 0) (x1 := 3)
    (y0 := 0) (y1 := 3) (d0 := 2) (d1 := 3) (d2 := 3) (by norm_num) (by norm_num) (by norm_num) hext
  generalize hA : sizing Limgrad.shippedCap (1 / 67108864 : ℚ) 2 3 1 extrudeOpts [] [0, 2, 0, 3] stencilV = A at key same
  generalize hB : sizing Limgrad.shippedCap (1 / 67108864 : ℚ) 2 3 3 extrudeOpts [] [0, 2, 0, 3, 0, 3] stencilV = B at same
  obtain ⟨out, rfl, e2⟩ := okAnd_spec key
  obtain ⟨out', rfl⟩ : ∃ out', B = .ok (some out') := by
    match B, same with
    | .ok (some out'), _ => exact ⟨out', rfl⟩
    | .ok none, same => exact absurd (same.2 rfl) (by simp)
  have e2 := of_decide_eq_true e2
  have hprep : Prepared 2 3 1 extrudeOpts stencilV stencilV := by
    have e : convertUnits "m-s" stencilV = stencilV := by
      unfold convertUnits
      rw [if_neg (by decide), if_neg (by decide)]
    have g : waterGuard 2 3 1 stencilV = false := by decide +kernel
    change replaceWater 2 3 1 _ (convertUnits "m-s" stencilV) = _
    rw [e]
    simp only [replaceWater, g]
    rfl
  have hrange : WithinRange 2 3 1 extrudeOpts (2 - 0) stencilV := by
    intro _
    refine ⟨by norm_num [extrudeOpts], .inr fun i _ j hj k _ => ?_⟩
    have : j = 0 ∨ j = 1 ∨ j = 2 := by omega
    rcases this with rfl | rfl | rfl <;> norm_num [extrudeOpts, stencilV, Opts.default]
  obtain ⟨-, -, -, b, hb, -, hall⟩ := C120_nodes (d0 := 2) (d1 := 3) (d2 := 3) (by norm_num) (by norm_num) (by norm_num) (by norm_num)
    (by norm_num) (by norm_num) (by norm_num) (by norm_num [extrudeOpts]) (by norm_num [extrudeOpts]) hext hprep hrange hA hB
  exact ⟨out, out', rfl, rfl, e2, fun i hi j hj k hk => (hall i hi j hj k hk (.inl rfl)).2⟩

end SM.Sizing
