import Verif.Model.OutsideFl
import Verif.Props.MeshLoop
import Verif.Props.InsideFl
import Verif.Props.BallFl
import Verif.Props.Lipschitz

/-!
# C130: returned cells are inside the domain in spite of rounding
-/

namespace SM.OutsideFl

open SM.Round Np

variable {K : Type} [Field K] [LinearOrder K] [IsStrictOrderedRing K] {u : K} {rnd : K → K} {d : ℕ}

/-! ### Specification -/

/-- The exact centroid of a cell. -/
def mean (vs : List (Fin d → K)) : Fin d → K := fun k => (vs.map fun v => v k).sum / ((d : K) + 1)

/-- The computed level-set function `fl` differs from `fd` by at most `e` on the points with coordinates up to `B`. -/
def Tracks (e B : K) (fl fd : (Fin d → K) → K) : Prop := ∀ x : Fin d → K, (∀ i, |x i| ≤ B) → |fl x - fd x| ≤ e

/-- `fd` changes by at most `L` times the largest change of a coordinate. -/
def MaxLip (L : K) (fd : (Fin d → K) → K) : Prop := ∀ (x y : Fin d → K) (δ : K), (∀ i, |x i - y i| ≤ δ) → |fd x - fd y| ≤ L * δ

/-! ### Centroids -/

theorem fold_near (hu : 0 ≤ u) (ha : Accurate rnd u) {B : K} {i : Fin d} : ∀ (vs : List (Fin d → K)) (k : ℕ) (S s' s : K), Near u k S s' s → (∀ v ∈ vs, |v i| ≤ B) →
    Near u (k + vs.length) (S + vs.length * B) (vs.foldl (fun s w => rnd (s + w i)) s') (s + (vs.map fun v => v i).sum)
  | [], k, S, s', s, h, _ => by simpa using h
  | v :: vs, k, S, s', s, h, hv => by
    have hx : Near u k B (v i) (v i) := (Near.exact (hv v (by simp))).weaken hu (Nat.zero_le k) le_rfl
    have step := (h.add hx).rnd hu ha
    have := fold_near hu ha vs (k + 1) _ _ _ step fun w hw => hv w (by simp [hw])
    simp only [List.foldl_cons, List.map_cons, List.sum_cons, List.length_cons]
    rw [show k + (vs.length + 1) = k + 1 + vs.length by omega, show S + ((vs.length + 1 : ℕ) : K) * B = S + B + vs.length * B by push_cast; ring,
      show s + (v i + (vs.map fun v => v i).sum) = s + v i + (vs.map fun v => v i).sum by ring]
    exact this

/-- The computed centroid of a cell with `d + 1` vertices. -/
theorem C130_centroid (hu : 0 ≤ u) (ha : Accurate rnd u) {B : K} {vs : List (Fin d → K)} (hl : vs.length = d + 1) (hv : ∀ v ∈ vs, ∀ i, |v i| ≤ B) (i : Fin d) :
    |InsideFl.centroid rnd vs d i - mean vs i| ≤ ((1 + u) ^ (d + 1) - 1) * B ∧ |InsideFl.centroid rnd vs d i| ≤ (1 + u) ^ (d + 1) * B := by
  match vs, hl with
  | v :: vs, hl =>
    have hl' : vs.length = d := by simpa using hl
    have h0 := fold_near hu ha (B := B) (i := i) vs 0 B (v i) (v i) (Near.exact (hv v (by simp) i)) fun w hw => hv w (by simp [hw]) i
    have hd : (0 : K) < (d : K) + 1 := by positivity
    have h1 := (h0.div hd).rnd hu ha
    rw [hl', show B + (d : K) * B = B * ((d : K) + 1) by ring, mul_div_cancel_right₀ _ hd.ne', zero_add] at h1
    have h2 : Near u (d + 1) B (InsideFl.centroid rnd (v :: vs) d i) (mean (v :: vs) i) := by
      simpa [InsideFl.centroid, mean] using h1
    exact ⟨h2.2, h2.size⟩

/-! ### Selection -/

omit [IsStrictOrderedRing K] in
theorem keeps_spec {fl : (Fin d → K) → K} {geps : K} {p : List (Fin d → K)} {r : List ℕ} {b : Bool} (h : keeps rnd fl geps p r = .ok b) :
    ∃ vs, Np.take p r = .ok vs ∧ (b = true ↔ fl (InsideFl.centroid rnd vs d) < -geps) := by
  unfold keeps at h
  simp only [bind, Except.bind, pure, Except.pure] at h
  cases hv : Np.take p r with
  | error e => simp [hv] at h
  | ok vs =>
    simp only [hv, Except.ok.injEq] at h
    exact ⟨vs, rfl, by rw [← h, decide_eq_true_iff]⟩

omit [IsStrictOrderedRing K] in
/-- Which cells are kept. -/
theorem removeOutside_spec {fl : (Fin d → K) → K} {geps : K} {p : List (Fin d → K)} {t t' : List (List ℕ)} (h : removeOutside rnd fl geps p t = .ok t') :
    t'.Sublist t ∧ ∀ r, r ∈ t' ↔ r ∈ t ∧ ∃ vs, Np.take p r = .ok vs ∧ fl (InsideFl.centroid rnd vs d) < -geps := by
  unfold removeOutside at h
  simp only [bind, Except.bind, pure, Except.pure] at h
  cases hk : t.mapM (keeps rnd fl geps p) with
  | error e => simp [hk] at h
  | ok ks =>
    simp only [hk, Except.ok.injEq] at h
    have hf := mapM_forall₂.1 hk
    clear hk
    subst h
    induction hf with
    | nil => simp
    | @cons r0 b t ks hb _ ih =>
      obtain ⟨vs, hv, hiff⟩ := keeps_spec hb
      rw [List.zip_cons_cons, List.filter_cons]
      cases b with
      | false =>
        simp only [Bool.false_eq_true, if_false]
        refine ⟨ih.1.cons _, fun r => ?_⟩
        rw [ih.2, List.mem_cons]
        refine ⟨fun ⟨h1, h2⟩ => ⟨.inr h1, h2⟩, fun ⟨h1, h2⟩ => ?_⟩
        rcases h1 with rfl | h1
        · obtain ⟨vs', hv', h3⟩ := h2
          rw [hv] at hv'
          cases hv'
          exact absurd (hiff.2 h3) (by simp)
        · exact ⟨h1, h2⟩
      | true =>
        simp only [if_true, List.map_cons]
        refine ⟨ih.1.cons_cons _, fun r => ?_⟩
        rw [List.mem_cons, List.mem_cons, ih.2]
        constructor
        · rintro (rfl | ⟨h1, h2⟩)
          · exact ⟨.inl rfl, vs, hv, hiff.1 rfl⟩
          · exact ⟨.inr h1, h2⟩
        · rintro ⟨rfl | h1, h2⟩
          · exact .inl rfl
          · exact .inr ⟨h1, h2⟩

theorem take_mem {α : Type} {p : List α} {r : List ℕ} {vs : List α} (h : Np.take p r = .ok vs) : vs.length = r.length ∧ ∀ v ∈ vs, v ∈ p := by
  unfold Np.take at h
  have hf := mapM_forall₂.1 h
  refine ⟨hf.length_eq.symm, ?_⟩
  clear h
  induction hf with
  | nil => simp
  | @cons a b l l' hb _ ih =>
    intro v hv
    rcases List.mem_cons.1 hv with rfl | hv
    · simp only [item] at hb
      split at hb
      · rename_i x hx
        cases hb
        exact List.mem_of_getElem? hx
      · cases hb
    · exact ih v hv

/-- **C130 (removal).** `_remove_triangles_outside` with rounded centroids and a computed level-set function: the result is a subsequence of the given cells; a kept
cell's exact centroid has an exact level-set value below `-geps + tol`, and every cell whose exact centroid is below `-geps - tol` is kept, where `tol` is the error of
the level-set function plus the error of the centroid. -/
theorem C130_removal (hu : 0 ≤ u) (ha : Accurate rnd u) {fl fd : (Fin d → K) → K} {e L B geps : K} (ht : Tracks e ((1 + u) ^ (d + 1) * B) fl fd) (hL : MaxLip L fd)
    {p : List (Fin d → K)} (hp : ∀ x ∈ p, ∀ i, |x i| ≤ B) {t t' : List (List ℕ)} (hw : ∀ r ∈ t, r.length = d + 1) (h : removeOutside rnd fl geps p t = .ok t') :
    t'.Sublist t ∧ ∀ r ∈ t, ∃ vs, Np.take p r = .ok vs ∧ (r ∈ t' → fd (mean vs) < -geps + (e + L * (((1 + u) ^ (d + 1) - 1) * B))) ∧
      (fd (mean vs) < -geps - (e + L * (((1 + u) ^ (d + 1) - 1) * B)) → r ∈ t') := by
  obtain ⟨hs, hspec⟩ := removeOutside_spec h
  refine ⟨hs, fun r hr => ?_⟩
  have hrun : ∃ vs, Np.take p r = .ok vs := by
    unfold removeOutside at h
    simp only [bind, Except.bind, pure, Except.pure] at h
    cases hk : t.mapM (keeps rnd fl geps p) with
    | error e => simp [hk] at h
    | ok ks =>
      obtain ⟨b, hb⟩ : ∃ b, keeps rnd fl geps p r = .ok b := by
        have hf := mapM_forall₂.1 hk
        clear h hk hspec hs hw
        induction hf with
        | nil => simp at hr
        | cons hb _ ih =>
          rcases List.mem_cons.1 hr with rfl | hr
          · exact ⟨_, hb⟩
          · exact ih hr
      obtain ⟨vs, hv, -⟩ := keeps_spec hb
      exact ⟨vs, hv⟩
  obtain ⟨vs, hv⟩ := hrun
  obtain ⟨hl, hm⟩ := take_mem hv
  have hc := C130_centroid hu ha (hl.trans (hw r hr)) fun v hv => hp v (hm v hv)
  have e1 := ht _ fun i => (hc i).2
  have e2 := hL _ _ _ fun i => (hc i).1
  obtain ⟨f1, f2⟩ := abs_le.1 e1
  obtain ⟨f3, f4⟩ := abs_le.1 e2
  refine ⟨vs, hv, fun hr' => ?_, fun hlt => (hspec r).2 ⟨hr, vs, hv, by linarith⟩⟩
  obtain ⟨-, vs', hv', hlt⟩ := (hspec r).1 hr'
  rw [hv] at hv'
  cases hv'
  linarith

/-- **C130 (initial points).** The points kept by `p[fd(p) < geps]`. -/
theorem C130_points {fl fd : (Fin d → K) → K} {e B geps : K} (ht : Tracks e B fl fd) {p : List (Fin d → K)} (hp : ∀ x ∈ p, ∀ i, |x i| ≤ B) :
    (keepPoints fl geps p).Sublist p ∧ (∀ x ∈ keepPoints fl geps p, fd x < geps + e) ∧ ∀ x ∈ p, fd x < geps - e → x ∈ keepPoints fl geps p := by
  refine ⟨List.filter_sublist, fun x hx => ?_, fun x hx hlt => ?_⟩
  · obtain ⟨h1, h2⟩ := List.mem_filter.1 hx
    have := abs_le.1 (ht x (hp x h1))
    have := of_decide_eq_true h2
    linarith
  · have := abs_le.1 (ht x (hp x hx))
    exact List.mem_filter.2 ⟨hx, decide_eq_true (by linarith)⟩

/-! ### Boxes -/

open SM.SdfFl in
theorem box_lip (b : Prim K d) : MaxLip 1 (fun x => b.eval id x) := by
  intro x y δ h
  simp only [b.eval_id, one_mul]
  refine b.bare_close fun i => ?_
  cases b.shift with
  | none => exact h i
  | some t =>
    simp only [translateBack, id]
    rw [show x i - t i - (y i - t i) = x i - y i by ring]
    exact h i

open SM.SdfFl in
/-- The exact level-set function of a geometry of boxes has constant one. -/
theorem geo_lip (g : Geo K d) : MaxLip 1 (fun x => g.eval id x) := by
  intro x y δ h
  rw [one_mul]
  induction g using Geo.ind with
  | hp b => simpa [Geo.eval] using box_lip b x y δ h
  | hu o os ho hos =>
    simp only [Geo.eval, evals_eq]
    exact foldl_min_close os hos ho
  | hi o os ho hos =>
    simp only [Geo.eval, evals_eq]
    exact foldl_max_close os hos ho
  | hd o os ho hos =>
    simp only [Geo.eval, evals_eq, List.map_map]
    refine foldl_max_close os (fun a ha => ?_) ho
    rw [Function.comp_apply, Function.comp_apply, neg_sub_neg, abs_sub_comm]
    exact hos a ha

/-- Simple form of the tolerance, in two and three dimensions. -/
theorem tol_le (hu : 0 ≤ u) (hu1 : u ≤ 1 / 16) (hd : d ≤ 3) {B : K} (hB : 0 ≤ B) :
    6 * u * ((1 + u) ^ (d + 1) * B) + 1 * (((1 + u) ^ (d + 1) - 1) * B) ≤ 13 * u * B := by
  have h1 : (1 + u) ^ (d + 1) ≤ (1 + u) ^ 4 := pow_le_pow_right₀ (by linarith) (by omega)
  have h2 : (1 + u) ^ 4 ≤ 1 + 5 * u := by
    have e : 1 + 5 * u - (1 + u) ^ 4 = u * (1 - 6 * u - 4 * u ^ 2 - u ^ 3) := by ring
    have h3 : u ^ 2 ≤ u * (1 / 16) := by nlinarith
    have h4 : u ^ 3 ≤ u * (1 / 16) := by nlinarith
    have : 0 ≤ u * (1 - 6 * u - 4 * u ^ 2 - u ^ 3) := mul_nonneg hu (by linarith)
    linarith
  have h3 : (1 + u) ^ (d + 1) ≤ 1 + 5 * u := h1.trans h2
  have h5 : (1 + u) ^ (d + 1) * B ≤ (1 + 5 * u) * B := mul_le_mul_of_nonneg_right h3 hB
  have h6 : 6 * u * ((1 + u) ^ (d + 1) * B) ≤ 6 * u * ((1 + 5 * u) * B) := mul_le_mul_of_nonneg_left h5 (by linarith)
  have h7 : u * (u * B) ≤ 1 / 16 * (u * B) := mul_le_mul_of_nonneg_right hu1 (mul_nonneg hu hB)
  have h8 := mul_nonneg hu hB
  linarith

open SM.SdfFl in
/-- **C130 (boxes).** Let the domain be any union, intersection and difference of possibly translated rectangles or cubes, with coordinates up to `B`. In the last step of
`generate_mesh`, computed in floating-point arithmetic with relative error `u`: a returned cell's exact centroid is strictly inside the domain as soon as
`13 u B ≤ h0 / 1000` (rounded), and a cell whose centroid is inside by more than `h0 / 1000 + 13 u B` is not lost. -/
theorem C130_boxes (h : Rounding rnd) (hu : 0 ≤ u) (hu1 : u ≤ 1 / 16) (ha : Round.Accurate rnd u) (hd : d ≤ 3) (g : Geo K d) {B h0 c : K} (hg : g.AllPrims (Within B))
    {p : List (Fin d → K)} (hp : ∀ x ∈ p, ∀ i, |x i| ≤ B) (hB : 0 ≤ B) {t t' : List (List ℕ)} (hw : ∀ r ∈ t, r.length = d + 1)
    (hrun : lastRemoval rnd (fun x => g.eval rnd x) h0 c p t = .ok t') :
    t'.Sublist t ∧ ∀ r ∈ t, ∃ vs, Np.take p r = .ok vs ∧ (13 * u * B ≤ rnd (h0 * c) → r ∈ t' → g.Interior (mean vs)) ∧
      (g.eval id (mean vs) < -rnd (h0 * c) - 13 * u * B → r ∈ t') := by
  have hBB : B ≤ (1 + u) ^ (d + 1) * B := le_mul_of_one_le_left hB (one_le_pow_u hu _)
  have hg' : g.AllPrims (Within ((1 + u) ^ (d + 1) * B)) := by
    clear hrun
    induction g using Geo.ind with
    | hp b =>
      simp only [Geo.AllPrims] at hg ⊢
      exact ⟨fun i => ⟨(hg.1 i).1.trans hBB, (hg.1 i).2.trans hBB⟩, fun t ht i => (hg.2 t ht i).trans hBB⟩
    | hu o os ho hos => simp only [Geo.AllPrims] at hg ⊢; exact ⟨ho hg.1, fun a ha => hos a ha (hg.2 a ha)⟩
    | hi o os ho hos => simp only [Geo.AllPrims] at hg ⊢; exact ⟨ho hg.1, fun a ha => hos a ha (hg.2 a ha)⟩
    | hd o os ho hos => simp only [Geo.AllPrims] at hg ⊢; exact ⟨ho hg.1, fun a ha => hos a ha (hg.2 a ha)⟩
  have ht : Tracks (6 * u * ((1 + u) ^ (d + 1) * B)) ((1 + u) ^ (d + 1) * B) (fun x => g.eval rnd x) (fun x => g.eval id x) :=
    fun x hx => C107_translated h hu (by linarith) ha x hx g hg'
  obtain ⟨hs, hr⟩ := C130_removal hu ha ht (geo_lip g) hp hw hrun
  refine ⟨hs, fun r hrt => ?_⟩
  obtain ⟨vs, hv, h1, h2⟩ := hr r hrt
  have htol := tol_le (d := d) hu hu1 hd hB
  refine ⟨vs, hv, fun hge hr' => ?_, fun hlt => h2 (by linarith)⟩
  rw [← (exact_classification _ _).1]
  have := h1 hr'
  linarith

/-! ### Disks, balls and their combinations -/

section Balls

open SM.Sdf (Pt eucl)

variable {v : ℝ} {rn : ℝ → ℝ}

theorem eucl_le_mul {d : ℕ} (x y : Pt d) {δ : ℝ} (h : ∀ i, |x i - y i| ≤ δ) : eucl x y ≤ d * δ := by
  rcases Nat.eq_zero_or_pos d with rfl | hd
  · simp [eucl]
  · have hδ : 0 ≤ δ := (abs_nonneg _).trans (h ⟨0, hd⟩)
    have hd1 : (1 : ℝ) ≤ d := by exact_mod_cast hd
    refine Real.sqrt_le_iff.2 ⟨by positivity, ?_⟩
    have h1 : ∑ i, (x i - y i) ^ 2 ≤ ∑ _i : Fin d, δ ^ 2 := Finset.sum_le_sum fun i _ => sq_le_sq' (by linarith [(abs_le.1 (h i)).1]) (abs_le.1 (h i)).2
    rw [Finset.sum_const, Finset.card_univ, Fintype.card_fin, nsmul_eq_mul] at h1
    have h2 : (d : ℝ) * δ ^ 2 ≤ d ^ 2 * δ ^ 2 := mul_le_mul_of_nonneg_right (by nlinarith) (by positivity)
    rw [mul_pow]
    exact h1.trans h2

theorem ball_maxLip {d : ℕ} (c : Pt d) (r : ℝ) : MaxLip (d : ℝ) fun p => eucl p c - r := by
  intro x y δ h
  have h1 := SM.Domain.ball_lip c r x y
  rw [one_mul] at h1
  exact h1.trans (eucl_le_mul x y h)

/-- The disk as computed. -/
theorem disk_tracks (hv : 0 ≤ v) (hv1 : v ≤ 1) (ha : Round.Accurate rn v) {xc yc r B : ℝ} (hr : 0 ≤ r) (hx : |xc| ≤ B) (hy : |yc| ≤ B) :
    Tracks (((1 + v) ^ 4 - 1) * max (4 * B) r) B (BallFl.ddisk rn xc yc r) fun p => eucl p ![xc, yc] - r := by
  intro p hp
  refine (BallFl.C123_disk_error hv hv1 ha xc yc hr p).trans (mul_le_mul_of_nonneg_left (max_le_max_right _ ?_) (by linarith [one_le_pow_u hv 4]))
  have := eucl_le_mul p ![xc, yc] (δ := 2 * B) fun i => by
    have h1 := abs_sub (p i) ((![xc, yc] : Pt 2) i)
    have h2 := hp i
    have h3 : |(![xc, yc] : Pt 2) i| ≤ B := by
      match i with
      | 0 => exact hx
      | 1 => exact hy
    linarith
  push_cast at this
  linarith

/-- The ball as computed. -/
theorem ball_tracks (hv : 0 ≤ v) (hv1 : v ≤ 1) (ha : Round.Accurate rn v) {xc yc zc r B : ℝ} (hr : 0 ≤ r) (hx : |xc| ≤ B) (hy : |yc| ≤ B) (hz : |zc| ≤ B) :
    Tracks (((1 + v) ^ 5 - 1) * max (6 * B) r) B (BallFl.dball rn xc yc zc r) fun p => eucl p ![xc, yc, zc] - r := by
  intro p hp
  refine (BallFl.C123_ball_error hv hv1 ha xc yc zc hr p).trans (mul_le_mul_of_nonneg_left (max_le_max_right _ ?_) (by linarith [one_le_pow_u hv 5]))
  have := eucl_le_mul p ![xc, yc, zc] (δ := 2 * B) fun i => by
    have h1 := abs_sub (p i) ((![xc, yc, zc] : Pt 3) i)
    have h2 := hp i
    have h3 : |(![xc, yc, zc] : Pt 3) i| ≤ B := by
      match i with
      | 0 => exact hx
      | 1 => exact hy
      | 2 => exact hz
    linarith
  push_cast at this
  linarith

/-- **C130 (disk).** A returned cell's exact centroid is strictly inside the disk as soon as the tolerance is below the margin `geps` of the test. -/
theorem C130_disk (hv : 0 ≤ v) (hv1 : v ≤ 1) (ha : Round.Accurate rn v) {xc yc r B h0 c : ℝ} (hr : 0 ≤ r) (hx : |xc| ≤ B) (hy : |yc| ≤ B) {p : List (Pt 2)}
    (hp : ∀ x ∈ p, ∀ i, |x i| ≤ B) {t t' : List (List ℕ)} (hw : ∀ r ∈ t, r.length = 3) (hrun : lastRemoval rn (BallFl.ddisk rn xc yc r) h0 c p t = .ok t')
    (htol : ((1 + v) ^ 4 - 1) * max (4 * ((1 + v) ^ 3 * B)) r + 2 * (((1 + v) ^ 3 - 1) * B) ≤ rn (h0 * c)) :
    ∀ q ∈ t', ∃ vs, Np.take p q = .ok vs ∧ eucl (mean vs) ![xc, yc] < r := by
  have hB : B ≤ (1 + v) ^ 3 * B := le_mul_of_one_le_left ((abs_nonneg _).trans hx) (one_le_pow_u hv _)
  obtain ⟨hs, h⟩ := C130_removal hv ha (disk_tracks hv hv1 ha hr (hx.trans hB) (hy.trans hB)) (ball_maxLip ![xc, yc] r) hp hw hrun
  intro q hq
  obtain ⟨vs, hvs, h1, -⟩ := h q (hs.subset hq)
  refine ⟨vs, hvs, ?_⟩
  have := h1 hq
  push_cast at this
  linarith

/-- **C130 (ball).** -/
theorem C130_ball (hv : 0 ≤ v) (hv1 : v ≤ 1) (ha : Round.Accurate rn v) {xc yc zc r B h0 c : ℝ} (hr : 0 ≤ r) (hx : |xc| ≤ B) (hy : |yc| ≤ B) (hz : |zc| ≤ B)
    {p : List (Pt 3)} (hp : ∀ x ∈ p, ∀ i, |x i| ≤ B) {t t' : List (List ℕ)} (hw : ∀ r ∈ t, r.length = 4)
    (hrun : lastRemoval rn (BallFl.dball rn xc yc zc r) h0 c p t = .ok t')
    (htol : ((1 + v) ^ 5 - 1) * max (6 * ((1 + v) ^ 4 * B)) r + 3 * (((1 + v) ^ 4 - 1) * B) ≤ rn (h0 * c)) :
    ∀ q ∈ t', ∃ vs, Np.take p q = .ok vs ∧ eucl (mean vs) ![xc, yc, zc] < r := by
  have hB : B ≤ (1 + v) ^ 4 * B := le_mul_of_one_le_left ((abs_nonneg _).trans hx) (one_le_pow_u hv _)
  obtain ⟨hs, h⟩ := C130_removal hv ha (ball_tracks hv hv1 ha hr (hx.trans hB) (hy.trans hB) (hz.trans hB)) (ball_maxLip ![xc, yc, zc] r) hp hw hrun
  intro q hq
  obtain ⟨vs, hvs, h1, -⟩ := h q (hs.subset hq)
  refine ⟨vs, hvs, ?_⟩
  have := h1 hq
  push_cast at this
  linarith

/-- **C130 (set operations).** The hypotheses of `C130_removal` pass from the operands to sharp unions, intersections and differences, so it applies to every
combination of boxes, disks and balls. -/
theorem C130_set_operations {d : ℕ} {e L B : ℝ} {o : (Pt d → ℝ) × (Pt d → ℝ)} {os : List ((Pt d → ℝ) × (Pt d → ℝ))} (h : ∀ a ∈ o :: os, Tracks e B a.1 a.2 ∧ MaxLip L a.2) :
    (Tracks e B (fun x => Sdf.unionEval 0 (o.1 x) (os.map (·.1 x))) (fun x => Sdf.unionEval 0 (o.2 x) (os.map (·.2 x))) ∧
      MaxLip L fun x => Sdf.unionEval 0 (o.2 x) (os.map (·.2 x))) ∧
    (Tracks e B (fun x => Sdf.interEval 0 (o.1 x) (os.map (·.1 x))) (fun x => Sdf.interEval 0 (o.2 x) (os.map (·.2 x))) ∧
      MaxLip L fun x => Sdf.interEval 0 (o.2 x) (os.map (·.2 x))) ∧
    (Tracks e B (fun x => Sdf.diffEval 0 (o.1 x) (os.map (·.1 x))) (fun x => Sdf.diffEval 0 (o.2 x) (os.map (·.2 x))) ∧
      MaxLip L fun x => Sdf.diffEval 0 (o.2 x) (os.map (·.2 x))) := by
  have ht := fun x hx => BallFl.C123_set_operations (f := fun a : (Pt d → ℝ) × (Pt d → ℝ) => a.1 x) (g := fun a => a.2 x) os (fun a ha => (h a (by simp [ha])).1 x hx)
    ((h o (by simp)).1 x hx)
  have hl := fun x y δ hδ => BallFl.C123_set_operations (f := fun a : (Pt d → ℝ) × (Pt d → ℝ) => a.2 x) (g := fun a => a.2 y) os
    (fun a ha => (h a (by simp [ha])).2 x y δ hδ) ((h o (by simp)).2 x y δ hδ)
  exact ⟨⟨fun x hx => (ht x hx).1, fun x y δ hδ => (hl x y δ hδ).1⟩, ⟨fun x hx => (ht x hx).2.1, fun x y δ hδ => (hl x y δ hδ).2.1⟩,
    fun x hx => (ht x hx).2.2, fun x y δ hδ => (hl x y δ hδ).2.2⟩

end Balls

/-! ### A concrete case -/

/-- The L-shaped difference of two rectangles, one of them translated, 5000 km from the origin, in metres. -/
def exGeo : SdfFl.Geo ℚ 2 := .diff (.prim (.rect 5000000 5001000 0 1000 none)) [.prim (.rect 0 500 0 500 (some ![5000500, 500]))]

/-- Two triangles of the triangulation: one inside, one in the removed corner. -/
def exPts : List (Fin 2 → ℚ) := [![5000000, 0], ![5000500, 0], ![5000500, 500], ![5000500, 1000], ![5001000, 1000]]

/-- Both cells. -/
def exCells : List (List ℕ) := [[0, 1, 2], [2, 4, 3]]

open SM.SdfFl in
/-- The hypotheses of `C130_boxes` hold with `h0 = 10`, in double precision, and the removal keeps the first cell and drops the second. -/
example : exGeo.AllPrims (Within 5001000) ∧ (∀ x ∈ exPts, ∀ i, |x i| ≤ 5001000) ∧
    (13 * (1 / 9007199254740992) * 5001000 ≤ SM.Fl.binary64 (10 * SM.Fl.binary64 (1 / 1000))) ∧
    lastRemoval SM.Fl.binary64 (fun x => exGeo.eval SM.Fl.binary64 x) 10 (SM.Fl.binary64 (1 / 1000)) exPts exCells = .ok [[0, 1, 2]] := by
  refine ⟨?_, by decide +kernel, by decide +kernel, by decide +kernel⟩
  simp only [exGeo, Geo.AllPrims, Within, Prim.lo, Prim.hi, Prim.shift, List.mem_singleton, forall_eq, Option.some.injEq, forall_eq', reduceCtorEq, false_imp_iff, implies_true,
    and_true, exists_prop, Fin.forall_fin_two]
  norm_num

end SM.OutsideFl
