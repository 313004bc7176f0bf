import Verif.Props.SizingExtrude

/-!
# C122: a layered velocity model gives layered sizes

If the velocity depends on the depth only, so do the sizes (up to the tolerance of the limiter).
-/

namespace SM.Sizing

open SM.Limgrad (InGrid at3 IsMin gdist diameter)

/-- The value depends on the first index only. -/
def Layered {α : Type} (d0 d1 d2 : ℕ) (A : Arr α) : Prop :=
  ∀ i < d0, ∀ j < d1, ∀ k < d2, ∀ j' < d1, ∀ k' < d2, A i j k = A i j' k'

section
variable {K : Type} [Field K] [LinearOrder K] [IsStrictOrderedRing K] [FloorSemiring K]

theorem ufilt_lay {d0 d1 d2 : ℕ} {w : ℕ × ℕ × ℕ} {A : Arr K} (h : Layered d0 d1 d2 A) : Layered d0 d1 d2 (ufilt d0 d1 d2 w A) := by
  have key : ∀ i < d0, ∀ j < d1, ∀ k < d2, ufilt d0 d1 d2 w A i j k = ufilt1 w.1 d0 (fun i' => A i' 0 0) i := by
    intro i hi j hj k hk
    simp only [ufilt]
    refine ufilt1_eq_const (by omega) (fun k' hk' => ufilt1_eq_const (by omega) (fun j' hj' => ?_) hj) hk
    exact ufilt1_congr (by omega) (fun i' hi' => h i' hi' j' hj' k' hk' 0 (by omega) 0 (by omega)) hi
  intro i hi j hj k hk j' hj' k' hk'
  rw [key i hi j hj k hk, key i hi j' hj' k' hk']

theorem prepared_lay {d0 d1 d2 : ℕ} {o : Opts K} {vp0 V : Arr K} (h : Layered d0 d1 d2 vp0) (hV : Prepared d0 d1 d2 o vp0 V) : Layered d0 d1 d2 V := by
  have hc : Layered d0 d1 d2 (convertUnits o.units vp0) := by
    intro i hi j hj k hk j' hj' k' hk'
    unfold convertUnits
    have := h i hi j hj k hk j' hj' k' hk'
    split_ifs <;> simp only [this]
  unfold Prepared replaceWater at hV
  split_ifs at hV
  · cases hw : o.vpWater with
    | none => rw [hw] at hV; cases hV
    | some w =>
      rw [hw] at hV
      simp only at hV
      split_ifs at hV
      cases hV
      intro i hi j hj k hk j' hj' k' hk'
      simp only [fillWater, hc i hi j hj k hk j' hj' k' hk']
  · cases hV; exact hc

theorem requested_lay {d0 d1 d2 : ℕ} {o : Opts K} {V : Arr K} {req : Arr (Fl K)} (h : Layered d0 d1 d2 V)
    (hr : requested d0 d1 d2 o V = .ok req) : Layered d0 d1 d2 req := by
  unfold requested at hr
  split_ifs at hr
  · cases hw : wavelengthSizing V o.wl o.freq with
    | error e => rw [hw] at hr; cases hr
    | ok a =>
      cases hg : gradientSizing d0 d1 d2 o.window V o.grad with
      | error e => rw [hw] at hr; simp only [hg] at hr; cases hr
      | ok b =>
        rw [hw] at hr; simp only [hg] at hr; cases hr
        have ha : Layered d0 d1 d2 a := by
          unfold wavelengthSizing at hw
          split_ifs at hw <;> cases hw
          · intro i hi j hj k hk j' hj' k' hk'; rfl
          · intro i hi j hj k hk j' hj' k' hk'
            simp only [h i hi j hj k hk j' hj' k' hk']
        have hb : Layered d0 d1 d2 b := by
          have hv : Layered d0 d1 d2 (winVar d0 d1 d2 o.window V) := by
            intro i hi j hj k hk j' hj' k' hk'
            have e1 := ufilt_lay (w := o.window) h i hi j hj k hk j' hj' k' hk'
            have e2 := ufilt_lay (w := o.window) (A := fun i j k => V i j k ^ 2)
              (fun i hi j hj k hk j' hj' k' hk' => by simp only [h i hi j hj k hk j' hj' k' hk']) i hi j hj k hk j' hj' k' hk'
            simp only [winVar, e1, e2]
          unfold gradientSizing at hg
          simp only at hg
          split_ifs at hg <;> cases hg
          · intro i hi j hj k hk j' hj' k' hk'; rfl
          · intro i hi j hj k hk j' hj' k' hk'; rfl
          · intro i hi j hj k hk j' hj' k' hk'
            simp only [hv i hi j hj k hk j' hj' k' hk']
        intro i hi j hj k hk j' hj' k' hk'
        simp only [ha i hi j hj k hk j' hj' k' hk', hb i hi j hj k hk j' hj' k' hk']
  · cases hr; intro i hi j hj k hk j' hj' k' hk'; rfl

theorem finite_lay {d0 d1 d2 : ℕ} {A : Arr (Fl K)} {B : Arr K} (h : Layered d0 d1 d2 A) (hB : finite d0 d1 d2 A = some B) : Layered d0 d1 d2 B := by
  intro i hi j hj k hk j' hj' k' hk'
  have e1 := finite_some hB hi hj hk
  have e2 := finite_some hB hi hj' hk'
  rw [h i hi j hj k hk j' hj' k' hk', e2] at e1
  injection e1 with e; exact e.symm

theorem courant_lay {dim d0 d1 d2 : ℕ} {crMax dt so : K} {V C C' : Arr K} (hV : Layered d0 d1 d2 V) (hC : Layered d0 d1 d2 C)
    (h : courant dim V C crMax dt so = .ok C') : Layered d0 d1 d2 C' := by
  unfold courant at h
  simp only at h
  split_ifs at h <;> cases h
  · exact hC
  · intro i hi j hj k hk j' hj' k' hk'
    simp only [hV i hi j hj k hk j' hj' k' hk', hC i hi j hj k hk j' hj' k' hk']

theorem limiter_lay {imax d0 d1 d2 : ℕ} {seps grade elen m M : K} {A R : Arr K} (hs : 0 ≤ seps) (he : 0 ≤ elen)
    (hm : IsMin d0 d1 d2 A m) (hm0 : 0 ≤ m) (hmM : m ≤ M) (hg : grade ≠ 0)
    (hA : Layered d0 d1 d2 A) (h : Limgrad.enforceGradation imax d0 d1 d2 seps A grade elen = .ok (R, true))
    {i j k j' k' : ℕ} (hi : i < d0) (hj : j < d1) (hk : k < d2) (hj' : j' < d1) (hk' : k' < d2) :
    R i j k - R i j' k' ≤ diameter d0 d1 d2 * (M * seps) := by
  have hgp : 0 < grade := by
    rcases Limgrad.enforce_ok h with ⟨h0', -, -⟩ | ⟨hpos, -, -⟩
    · exact absurd h0' hg
    · exact hpos
  have hst : 0 ≤ elen * grade := mul_nonneg he hgp.le
  have hp : InGrid d0 d1 d2 (i, j, k) := ⟨hi, hj, hk⟩
  have hp' : InGrid d0 d1 d2 (i, j', k') := ⟨hi, hj', hk'⟩
  obtain ⟨q, hq, -, hlow⟩ := Limgrad.C92_lower he h hp'
  have hq2 : InGrid d0 d1 d2 (q.1, j, k) := ⟨hq.1, hj, hk⟩
  have hup := Limgrad.C92_upper hs he hm hm0 hg h hp hq2
  have eA := hA q.1 hq.1 j hj k hk q.2.1 hq.2.1 q.2.2 hq.2.2
  have hd : gdist (i, j, k) (q.1, j, k) ≤ gdist (i, j', k') q := by simp only [gdist]; omega
  have hdK : ((gdist (i, j, k) (q.1, j, k) : ℕ) : K) ≤ (gdist (i, j', k') q : ℕ) := by exact_mod_cast hd
  have hdD : ((gdist (i, j, k) (q.1, j, k) : ℕ) : K) ≤ diameter d0 d1 d2 := by exact_mod_cast Limgrad.gdist_le hp hq2
  have b : ((gdist (i, j, k) (q.1, j, k) : ℕ) : K) * (m * seps) ≤ diameter d0 d1 d2 * (M * seps) :=
    mul_le_mul hdD (mul_le_mul_of_nonneg_right hmM hs) (mul_nonneg hm0 hs) (by positivity)
  have s := mul_le_mul_of_nonneg_right hdK hst
  simp only [at3] at hup hlow
  rw [eA] at hup
  rw [mul_add] at hup
  linarith

/-- In the style `edge`, and inside the range of the model in every style, a pad copies a value. -/
theorem pad1_copy {st : Style} (m : K) {n b : ℕ} (hn : 0 < n) {j : ℕ} (hj : j < n + 2 * b) (h : st = .edge ∨ (b ≤ j ∧ j < b + n)) :
    ∃ j' < n, ∀ f : ℕ → K, pad1 st m n b b f j = f j' := by
  rcases h with rfl | ⟨h1, h2⟩
  · by_cases c1 : j < b
    · exact ⟨0, hn, fun f => by unfold pad1; rw [if_pos c1]⟩
    · by_cases c2 : j < b + n
      · exact ⟨j - b, by omega, fun f => by unfold pad1; rw [if_neg c1, if_pos c2]⟩
      · exact ⟨n - 1, by omega, fun f => by unfold pad1; rw [if_neg c1, if_neg c2]⟩
  · exact ⟨j - b, by omega, fun f => by unfold pad1; rw [if_neg (by omega), if_pos h2]⟩

theorem pad1_close {st : Style} {m T : K} {n b i : ℕ} (hn : 0 < n) (hT : 0 ≤ T) {f g : ℕ → K} (h : ∀ x < n, |f x - g x| ≤ T) (hi : i < n + b) :
    |pad1 st m n b 0 f i - pad1 st m n b 0 g i| ≤ T := by
  unfold pad1
  split_ifs with c1 c2
  · cases st with
    | edge => exact h 0 hn
    | constant => simpa using hT
    | linearRamp =>
      have hb : (0 : K) < b := by exact_mod_cast (by omega : 0 < b)
      have e : m + (i : K) * ((f 0 - m) / b) - (m + (i : K) * ((g 0 - m) / b)) = (i : K) / b * (f 0 - g 0) := by ring
      have hr : (i : K) / b ≤ 1 := by rw [div_le_one hb]; exact_mod_cast c1.le
      have hr0 : (0 : K) ≤ (i : K) / b := by positivity
      simp only [e]
      rw [abs_mul, abs_of_nonneg hr0]
      calc (i : K) / b * |f 0 - g 0| ≤ 1 * |f 0 - g 0| := mul_le_mul_of_nonneg_right hr (abs_nonneg _)
        _ ≤ T := by rw [one_mul]; exact h 0 hn
  · exact h _ (by omega)
  · omega

/-- Padding an array that is layered up to `T`. -/
theorem pad3_lay {st : Style} {m T : K} {d0 d1 d2 b0 b1 b2 : ℕ} (h0 : 0 < d0) (h1 : 0 < d1) (h2 : 0 < d2) (hT : 0 ≤ T) {A : Arr K}
    (hA : ∀ i < d0, ∀ j < d1, ∀ k < d2, ∀ j' < d1, ∀ k' < d2, |A i j k - A i j' k'| ≤ T) {i j k j' k' : ℕ} (hi : i < d0 + b0)
    (hj : j < d1 + 2 * b1) (hk : k < d2 + 2 * b2) (hj' : j' < d1 + 2 * b1) (hk' : k' < d2 + 2 * b2)
    (hin : st = .edge ∨ ((b1 ≤ j ∧ j < b1 + d1) ∧ (b2 ≤ k ∧ k < b2 + d2) ∧ (b1 ≤ j' ∧ j' < b1 + d1) ∧ (b2 ≤ k' ∧ k' < b2 + d2))) :
    |pad3 st m d0 d1 d2 b0 b1 b2 A i j k - pad3 st m d0 d1 d2 b0 b1 b2 A i j' k'| ≤ T := by
  obtain ⟨u, hu, eu⟩ := pad1_copy m h1 hj (hin.imp id fun h => h.1)
  obtain ⟨v, hv, ev⟩ := pad1_copy m h2 hk (hin.imp id fun h => h.2.1)
  obtain ⟨u', hu', eu'⟩ := pad1_copy m h1 hj' (hin.imp id fun h => h.2.2.1)
  obtain ⟨v', hv', ev'⟩ := pad1_copy m h2 hk' (hin.imp id fun h => h.2.2.2)
  simp only [pad3]
  rw [ev, eu, ev', eu']
  exact pad1_close h0 hT (fun x hx => hA x hx u hu v hv u' hu' v' hv') hi

/-- **C122 (on the grid).** A velocity that depends on the depth only gives, at two nodes of the same depth within the range of the model (at any two
nodes of the same depth in the pad style `edge`), the same velocity and the same size up to the tolerance of the limiter (exactly, without gradation). -/
theorem C122_nodes {seps : K} {d0 d1 d2 : ℕ} {o : Opts K} {names : List String} {bbox : List K}
    {vp0 V : Arr K} {out : Out K} (h0 : 0 < d0) (h1 : 0 < d1) (h2 : 0 < d2) (hs : 0 ≤ seps)
    (hb : OrderedBbox bbox) (hp : 0 < o.hmin) (hle : o.hmin ≤ o.hmax)
    (hm : Layered d0 d1 d2 vp0) (hV : Prepared d0 d1 d2 o vp0 V) (hrange : WithinRange d0 d1 d2 o (depthOf bbox) V)
    (h : sizing Limgrad.shippedCap seps d0 d1 d2 o names bbox vp0 = .ok (some out)) :
    ∃ bx yb, out.d1 = d1 + 2 * bx ∧ out.d2 = d2 + 2 * yb ∧ (o.domainPad = 0 → bx = 0 ∧ yb = 0) ∧
      ∀ i < out.d0, ∀ j < out.d1, ∀ k < out.d2, ∀ j' < out.d1, ∀ k' < out.d2,
        (o.padStyle = "edge" ∨ ((bx ≤ j ∧ j < bx + d1) ∧ (yb ≤ k ∧ k < yb + d2) ∧ (bx ≤ j' ∧ j' < bx + d1) ∧ (yb ≤ k' ∧ k' < yb + d2))) →
        out.vp i j k = out.vp i j' k' ∧ |out.cell i j k - out.cell i j' k'| ≤ tolerance seps d0 d1 d2 o := by
  obtain ⟨vp, bb, req, cell, cell1, cell2, hvp, hbb, -, hreq, hfi, hc, hg, hpad⟩ := sizing_some h
  have e1 : V = vp := by unfold Prepared at hV; rw [hV] at hvp; cases hvp; rfl
  subst e1
  have mv := prepared_lay hm hV
  have mc : Layered d0 d1 d2 cell := finite_lay (A := fun i j k => clamp o.hmin o.hmax (req i j k))
    (fun i hi j hj k hk j' hj' k' hk' => by simp only [requested_lay mv hreq i hi j hj k hk j' hj' k' hk']) hfi
  have mc1 : Layered d0 d1 d2 cell1 := courant_lay mv mc hc
  have hT : 0 ≤ tolerance seps d0 d1 d2 o := by
    unfold tolerance
    have := hp.le.trans hle
    split_ifs <;> positivity
  have mc2 : ∀ i < d0, ∀ j < d1, ∀ k < d2, ∀ j' < d1, ∀ k' < d2, |cell2 i j k - cell2 i j' k'| ≤ tolerance seps d0 d1 d2 o := by
    obtain ⟨c, hlim⟩ := gradation_ok hg
    intro i hi j hj k hk j' hj' k' hk'
    by_cases hgr : o.grade = 0
    · have ec : cell2 = cell1 := by
        rcases Limgrad.enforce_ok hlim with ⟨-, e, -⟩ | ⟨hpos, -, -⟩
        · exact e
        · exact absurd hgr hpos.ne'
      rw [ec, mc1 i hi j hj k hk j' hj' k' hk', sub_self, abs_zero]
      exact hT
    · obtain ⟨hr, hdt⟩ := hrange hgr
      obtain ⟨hmin, hm0, hmM, hR⟩ := gradation_converged h0 h1 h2 hs hb hp hle hbb hfi hc hg hgr hr hdt
      have he : 0 ≤ bb.zLen / d0 := div_nonneg (zLen_nonneg hb hbb) (by positivity)
      rw [tolerance, if_neg hgr, abs_le]
      have a1 := limiter_lay hs he hmin hm0 hmM hgr mc1 hR hi hj hk hj' hk'
      have a2 := limiter_lay hs he hmin hm0 hmM hgr mc1 hR hi hj' hk' hj hk
      exact ⟨by linarith, a1⟩
  rcases buildPad_ok hpad with ⟨hp0, rfl⟩ | ⟨hpp, st, b0, b1, b2, hps, e0, e1, e2, ec, ev⟩
  · exact ⟨0, 0, by simp, by simp, fun _ => ⟨rfl, rfl⟩, fun i hi j hj k hk j' hj' k' hk' _ => ⟨mv i hi j hj k hk j' hj' k' hk', mc2 i hi j hj k hk j' hj' k' hk'⟩⟩
  · refine ⟨b1, b2, e1, e2, fun e => absurd e hpp.ne', ?_⟩
    intro i hi j hj k hk j' hj' k' hk' hin
    rw [e0] at hi
    rw [e1] at hj hj'
    rw [e2] at hk hk'
    have hin' := hin.imp_left (fun e => show st = .edge by
      rw [e] at hps
      simp [parseStyle] at hps
      exact hps.symm)
    rw [ec, ev]
    refine ⟨?_, pad3_lay h0 h1 h2 hT mc2 hi hj hk hj' hk' hin'⟩
    have := pad3_lay (A := V) (m := amax d0 d1 d2 V) h0 h1 h2 le_rfl (fun i hi j hj k hk j' hj' k' hk' => by
      rw [mv i hi j hj k hk j' hj' k' hk', sub_self, abs_zero]) hi hj hk hj' hk' hin'
    exact sub_eq_zero.1 (abs_nonpos_iff.1 this)

end

end SM.Sizing

namespace SM.Interp

open SM.Sizing (Out Bbox Arr Layered WithinRange depthOf tolerance)

variable {K : Type} [Field K] [LinearOrder K] [IsStrictOrderedRing K]

theorem seg_near {a b : K} {n : ℕ} (hn : 2 ≤ n) (hab : a < b) {x : K} (h1 : a ≤ x) (h2 : x ≤ b) {f : ℕ → K} {c T : K} (h : ∀ i < n, |f i - c| ≤ T) :
    |seg (linspace a b n) f x - c| ≤ T := by
  have hg := linspace_good hn hab
  obtain ⟨i, hi, hx1, hx2⟩ := exists_cell hg (by rw [linspace_first]; exact h1)
    (x := x) (by change x ≤ (linspace a b n).node (n - 1); rw [linspace_last _ _ hn]; exact h2)
  have e1 : seg (linspace a b n) f x = _ := step_eq hg hi hx1 hx2 f
  obtain ⟨t1, t2⟩ := t_bounds hg hx1 hx2
  rw [e1]
  set t := (x - (linspace a b n).node i) / ((linspace a b n).node (i + 1) - (linspace a b n).node i)
  obtain ⟨u1, u2⟩ := abs_le.1 (h i (by have : i + 1 < n := hi; omega))
  obtain ⟨v1, v2⟩ := abs_le.1 (h (i + 1) hi)
  rw [abs_le]
  constructor <;> nlinarith

/-- Two points at the same depth. -/
def SameDepth : List K → List K → Prop
  | z :: _, z' :: _ => z = z'
  | _, _ => False

theorem sizeEval_lay {out : Out K} (hpr : Proper out) {T : K}
    (h : ∀ i < out.d0, ∀ j < out.d1, ∀ k < out.d2, ∀ j' < out.d1, ∀ k' < out.d2, |out.cell i j k - out.cell i j' k'| ≤ T)
    {p p' : List K} (hp : InBbox out.bbox p) (hp' : InBbox out.bbox p') (hz : SameDepth p p') : |sizeEval out p - sizeEval out p'| ≤ T := by
  obtain ⟨d0, d1, d2, cell, vp, bb⟩ := out
  cases bb with
  | two z0 z1 x0 x1 =>
    match p, p', hp, hp', hz with
    | [z, x], [z', x'], ⟨a1, a2, b1, b2⟩, ⟨_, _, b1', b2'⟩, hz =>
      obtain ⟨n0, n1, hz0, hx0, e⟩ := hpr
      simp only at n0 n1 e h
      cases hz
      subst e
      show |interp [linspace z0 z1 d0, linspace x0 x1 d1] (ofArr cell) [z, x] - interp [linspace z0 z1 d0, linspace x0 x1 d1] (ofArr cell) [z, x']| ≤ T
      rw [interp_two, interp_two]
      have key : ∀ i < d0, |seg (linspace x0 x1 d1) (fun j => ofArr cell [i, j]) x - seg (linspace x0 x1 d1) (fun j => ofArr cell [i, j]) x'| ≤ T := by
        intro i hi
        refine seg_near n1 hx0 b1 b2 fun j hj => ?_
        rw [abs_sub_comm]
        exact seg_near n1 hx0 b1' b2' fun j' hj' => h i hi j' hj' 0 one_pos j hj 0 one_pos
      have := seg_near n0 hz0 a1 a2 (c := 0) (T := T)
        (f := fun i => seg (linspace x0 x1 d1) (fun j => ofArr cell [i, j]) x - seg (linspace x0 x1 d1) (fun j => ofArr cell [i, j]) x') fun i hi => by simpa using key i hi
      have e : ∀ F G : ℕ → K, seg (linspace z0 z1 d0) (fun i => F i - G i) z = seg (linspace z0 z1 d0) F z - seg (linspace z0 z1 d0) G z := by
        intro F G; unfold seg lin1; ring
      rw [e, sub_zero] at this
      exact this
  | three z0 z1 x0 x1 y0 y1 =>
    match p, p', hp, hp', hz with
    | [z, x, y], [z', x', y'], ⟨a1, a2, b1, b2, c1, c2⟩, ⟨_, _, b1', b2', c1', c2'⟩, hz =>
      obtain ⟨n0, n1, hz0, hx0, hy0, n2⟩ := hpr
      simp only at n0 n1 n2 h
      cases hz
      show |interp [linspace z0 z1 d0, linspace x0 x1 d1, linspace y0 y1 d2] (ofArr cell) [z, x, y] -
        interp [linspace z0 z1 d0, linspace x0 x1 d1, linspace y0 y1 d2] (ofArr cell) [z, x', y']| ≤ T
      rw [interp_three, interp_three]
      have key2 : ∀ i < d0, ∀ j < d1, ∀ j' < d1, |seg (linspace y0 y1 d2) (fun k => ofArr cell [i, j, k]) y - seg (linspace y0 y1 d2) (fun k => ofArr cell [i, j', k]) y'| ≤ T := by
        intro i hi j hj j' hj'
        refine seg_near n2 hy0 c1 c2 fun k hk => ?_
        rw [abs_sub_comm]
        exact seg_near n2 hy0 c1' c2' fun k' hk' => h i hi j' hj' k' hk' j hj k hk
      have key : ∀ i < d0, |seg (linspace x0 x1 d1) (fun j => seg (linspace y0 y1 d2) (fun k => ofArr cell [i, j, k]) y) x -
          seg (linspace x0 x1 d1) (fun j => seg (linspace y0 y1 d2) (fun k => ofArr cell [i, j, k]) y') x'| ≤ T := by
        intro i hi
        refine seg_near n1 hx0 b1 b2 fun j hj => ?_
        rw [abs_sub_comm]
        refine seg_near n1 hx0 b1' b2' fun j' hj' => ?_
        rw [abs_sub_comm]
        exact key2 i hi j hj j' hj'
      have := seg_near n0 hz0 a1 a2 (c := 0) (T := T)
        (f := fun i => seg (linspace x0 x1 d1) (fun j => seg (linspace y0 y1 d2) (fun k => ofArr cell [i, j, k]) y) x -
          seg (linspace x0 x1 d1) (fun j => seg (linspace y0 y1 d2) (fun k => ofArr cell [i, j, k]) y') x') fun i hi => by simpa using key i hi
      have e : ∀ F G : ℕ → K, seg (linspace z0 z1 d0) (fun i => F i - G i) z = seg (linspace z0 z1 d0) F z - seg (linspace z0 z1 d0) G z := by
        intro F G; unfold seg lin1; ring
      rw [e, sub_zero] at this
      exact this

/-- **C122 (everywhere).** The size asked for at two points of the same depth is the same, up to the tolerance of the limiter, when the velocity depends
on the depth only and there is no padding or padding of style `edge`. -/
theorem C122_everywhere [FloorSemiring K] {seps : K} {d0 d1 d2 : ℕ} {o : Sizing.Opts K} {names : List String} {bbox : List K}
    {vp0 V : Arr K} {out : Out K} (h0 : 0 < d0) (h1 : 0 < d1) (h2 : 0 < d2) (hs : 0 ≤ seps)
    (hb : Sizing.OrderedBbox bbox) (hp : 0 < o.hmin) (hle : o.hmin ≤ o.hmax) (hst : o.domainPad = 0 ∨ o.padStyle = "edge")
    (hm : Layered d0 d1 d2 vp0) (hV : Sizing.Prepared d0 d1 d2 o vp0 V) (hrange : WithinRange d0 d1 d2 o (depthOf bbox) V)
    (h : Sizing.sizing Limgrad.shippedCap seps d0 d1 d2 o names bbox vp0 = .ok (some out)) (hpr : Proper out)
    {p p' : List K} (hp1 : InBbox out.bbox p) (hp2 : InBbox out.bbox p') (hz : SameDepth p p') :
    |sizeEval out p - sizeEval out p'| ≤ tolerance seps d0 d1 d2 o := by
  obtain ⟨bx, yb, e1, e2, e3, hall⟩ := Sizing.C122_nodes h0 h1 h2 hs hb hp hle hm hV hrange h
  refine sizeEval_lay hpr (fun i hi j hj k hk j' hj' k' hk' => (hall i hi j hj k hk j' hj' k' hk' ?_).2) hp1 hp2 hz
  rcases hst with hst | hst
  · obtain ⟨rfl, rfl⟩ := e3 hst
    right
    omega
  · exact .inl hst

end SM.Interp

namespace SM.Sizing

/-- Two layers of 1 and 2 m/s. -/
def layeredV : Arr ℚ := fun i _ _ => 2 ^ i

/-- The hypotheses are met by two layers with the wavelength criterion, a timestep, gradation and padding of style `edge`; sizes differ with depth, and at the
same depth they are within the tolerance. -/
example : ∃ out, sizing Limgrad.shippedCap (1 / 67108864) 2 2 1 { extrudeOpts with padStyle := "edge", grad := 0 } [] [0, 2, 0, 2] layeredV = .ok (some out) ∧
    out.cell 1 1 0 ≠ out.cell 2 1 0 ∧ Interp.Proper out ∧
    ∀ j < out.d1, ∀ k < out.d2, ∀ j' < out.d1, ∀ k' < out.d2, |out.cell 1 j k - out.cell 1 j' k'| ≤ tolerance (1 / 67108864) 2 2 1 { extrudeOpts with padStyle := "edge", grad := 0 } := by
  have key : okAnd (K := ℚ) (sizing Limgrad.shippedCap (1 / 67108864) 2 2 1 { extrudeOpts with padStyle := "edge", grad := 0 } [] [0, 2, 0, 2] layeredV)
      (fun out => decide (out.cell 1 1 0 ≠ out.cell 2 1 0 ∧ 2 ≤ out.d0 ∧ 2 ≤ out.d1 ∧
        (match out.bbox with | .three .. => false | .two z0 z1 x0 x1 => decide (z0 < z1 ∧ x0 < x1 ∧ out.d2 = 1)) = true)) = true := by decide +kernel
  generalize hA : sizing Limgrad.shippedCap (1 / 67108864 : ℚ) 2 2 1 { extrudeOpts with padStyle := "edge", grad := 0 } [] [0, 2, 0, 2] layeredV = A at key
  obtain ⟨out, rfl, e2⟩ := okAnd_spec key
  obtain ⟨e1, e2, e3, e4⟩ := of_decide_eq_true e2
  have hpr : Interp.Proper out := by
    obtain ⟨d0, d1, d2, cell, vp, bb⟩ := out
    cases bb with
    | three => exact absurd e4 (by simp)
    | two => exact ⟨e2, e3, of_decide_eq_true e4⟩
  have hprep : Prepared 2 2 1 { extrudeOpts with padStyle := "edge", grad := 0 } layeredV layeredV := by
    have e : convertUnits "m-s" layeredV = layeredV := by
      unfold convertUnits
      rw [if_neg (by decide), if_neg (by decide)]
    have g : waterGuard 2 2 1 layeredV = false := by decide +kernel
    change replaceWater 2 2 1 _ (convertUnits "m-s" layeredV) = _
    rw [e]
    simp only [replaceWater, g]
    rfl
  refine ⟨out, rfl, e1, hpr, ?_⟩
  obtain ⟨bx, yb, -, -, -, hall⟩ := C122_nodes (bbox := [0, 2, 0, 2]) (by norm_num) (by norm_num) (by norm_num) (by norm_num) ⟨by norm_num, by norm_num⟩
    (by norm_num [extrudeOpts]) (by norm_num [extrudeOpts]) (fun i _ j _ k _ j' _ k' _ => rfl) hprep (by
      intro _
      refine ⟨by norm_num [extrudeOpts, depthOf], .inr ?_⟩
      unfold AllNodes
      decide +kernel) hA
  exact fun j hj k hk j' hj' k' hk' => (hall 1 (by omega) j hj k hk j' hj' k' hk' (.inl rfl)).2

end SM.Sizing
