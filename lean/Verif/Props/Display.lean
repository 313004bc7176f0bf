import Verif.Model.Display
import Mathlib.Tactic.Linarith
import Mathlib.Tactic.NormNum
import Mathlib.Tactic.FieldSimp
import Mathlib.Algebra.Order.Floor.Ring

/-!
# C137: pictures
-/

namespace SM.Display

noncomputable section

/-! ### `show` -/

theorem sample_mem {d : ℕ} {u : ℕ → ℝ} (hu : ∀ i, 0 ≤ u i ∧ u i < 1) {bbox : Fin d → ℝ × ℝ} (hb : ∀ k, (bbox k).1 ≤ (bbox k).2) {N : ℕ} {p : Fin d → ℝ}
    (h : p ∈ generateSamples u bbox N) (k : Fin d) : (bbox k).1 - 0.01 ≤ p k ∧ p k ≤ (bbox k).2 + 0.01 := by
  simp only [generateSamples, List.mem_map] at h
  obtain ⟨i, -, rfl⟩ := h
  obtain ⟨h0, h1⟩ := hu (d * i + k)
  have := hb k
  simp only [uniform]
  have hw : (0 : ℝ) ≤ (bbox k).2 + 0.01 - ((bbox k).1 - 0.01) := by norm_num; linarith
  constructor
  · nlinarith [mul_nonneg hw h0]
  · nlinarith [mul_nonneg hw (sub_nonneg.2 h1.le)]

/-- **C137 (show).** Whatever file name is given, `show` opens a window. There is one sample per requested sample, in the bounding box enlarged by 0.01; the
dots are exactly the samples whose distance is below 0.01, each coloured with the value of the domain's function there. -/
theorem C137_show_partial {d : ℕ} {u : ℕ → ℝ} (hu : ∀ i, 0 ≤ u i ∧ u i < 1) (geo : Geo d) (hb : ∀ k, (geo.bbox k).1 ≤ (geo.bbox k).2) (filename : Option String)
    (samples : ℕ) : ∃ S : List (Fin d → ℝ), S.length = samples ∧ (∀ p ∈ S, ∀ k, (geo.bbox k).1 - 0.01 ≤ p k ∧ p k ≤ (geo.bbox k).2 + 0.01) ∧
      («show» u geo filename samples).1 = .window ∧ ((«show» u geo filename samples).2.map Prod.fst).Sublist S ∧
      ∀ p c, (p, c) ∈ («show» u geo filename samples).2 ↔ p ∈ S ∧ |geo.eval p| < 0.01 ∧ c = geo.eval p := by
  refine ⟨generateSamples u geo.bbox samples, by simp [generateSamples], fun p hp => sample_mem hu hb hp, rfl, ?_, fun p c => ?_⟩
  · simp only [«show», showGeo, List.map_map]
    exact (List.map_id' _ ▸ List.filter_sublist)
  · simp only [«show», showGeo, List.mem_map, List.mem_filter, decide_eq_true_eq, Prod.mk.injEq, abs_lt]
    constructor
    · rintro ⟨q, ⟨hq, h1, h2⟩, rfl, rfl⟩
      exact ⟨hq, ⟨h1, h2⟩, rfl⟩
    · rintro ⟨hp, ⟨h1, h2⟩, rfl⟩
      exact ⟨p, ⟨hp, h1, h2⟩, rfl, rfl⟩

/-- **C137 is false: files.** `show(filename=f)` never writes `f`. -/
theorem C137_false_file {d : ℕ} (u : ℕ → ℝ) (geo : Geo d) (f : String) (samples : ℕ) : («show» u geo (some f) samples).1 ≠ .file f := by
  simp [«show», showGeo, target]

/-- The unit square shown with one sample in its middle and one on its border: one dot. -/
example : ∃ (u : ℕ → ℝ) (geo : Geo 2), (∀ i, 0 ≤ u i ∧ u i < 1) ∧ (∀ k, (geo.bbox k).1 ≤ (geo.bbox k).2) ∧
    («show» u geo (some "square.png") 2) = (.window, [(![0, 0.5], 0)]) := by
  refine ⟨fun i => if i = 2 then 1 / 102 else 1 / 2, ⟨fun _ => (0, 1), fun p => max (max (-p 0) (p 0 - 1)) (max (-p 1) (p 1 - 1))⟩, fun i => ?_, fun k => by norm_num, ?_⟩
  · dsimp only; split <;> norm_num
  · have hs : generateSamples (fun i => if i = 2 then (1 / 102 : ℝ) else 1 / 2) (fun _ : Fin 2 => ((0 : ℝ), (1 : ℝ))) 2 = [![0.5, 0.5], ![0, 0.5]] := by
      simp only [generateSamples, List.range_succ, List.range_zero, List.nil_append, List.cons_append, List.map_cons, List.map_nil, List.cons.injEq, and_true]
      constructor <;> funext k <;> fin_cases k <;> norm_num [uniform]
    simp only [«show», showGeo, target, hs]
    rw [List.filter_cons_of_neg (by norm_num), List.filter_cons_of_pos (by norm_num)]
    norm_num

/-! ### `plot_sizing_function` -/

theorem mem_rows {stride : ℕ} {zs : List ℝ} {z : ℝ} : z ∈ rows stride zs ↔ ∃ i, i % stride = 0 ∧ zs[i]? = some z := by
  simp only [rows, List.mem_map, List.mem_filter, beq_iff_eq, Prod.exists, List.mem_zipIdx_iff_getElem?]
  constructor
  · rintro ⟨w, i, ⟨h, hi⟩, rfl⟩; exact ⟨i, hi, h⟩
  · rintro ⟨i, hi, h⟩; exact ⟨z, i, ⟨h, hi⟩, rfl⟩

theorem arange50 {a b : ℝ} {i : ℕ} {z : ℝ} : (Init.gridVals a 50 (Init.gridCount a b 50).toNat)[i]? = some z ↔ z = a + i * 50 ∧ z < b := by
  simp only [Init.gridVals, List.getElem?_map, Option.map_eq_some_iff, List.getElem?_eq_some_iff, List.length_range, List.getElem_range, exists_prop]
  have key : i < (Init.gridCount a b 50).toNat ↔ a + i * 50 < b := by
    rw [Int.lt_toNat, Init.gridCount, Int.lt_ceil, lt_div_iff₀ (by norm_num)]
    push_cast
    constructor <;> intro h <;> linarith
  constructor
  · rintro ⟨j, ⟨h, rfl⟩, rfl⟩; exact ⟨rfl, key.1 h⟩
  · rintro ⟨rfl, h⟩; exact ⟨i, ⟨key.2 h, rfl⟩, rfl⟩

/-- **C137 (plot, rank 0).** On rank 0 the plot of a 2-D sizing function is written to the file if a name is given and shown in a window otherwise; its pixels sit at the
points `(zmin + 50 i, xmin + 50 j)` inside the box whose row `i` is a multiple of `stride`, each coloured with the mesh size there. -/
theorem C137_plot {z0 z1 x0 x1 : ℝ} (fh : ℝ → ℝ → ℝ) {stride : ℕ} (hs : stride ≠ 0) (filename : Option String) :
    ∃ T px, plotSizing 0 (.sizing [z0, z1, x0, x1] fh) stride filename = .ok (T, px) ∧
      (filename = none → T = .window) ∧ (∀ f, filename = some f → T = .file f) ∧
      ∀ q : Pixel, q ∈ px ↔ q.colour = fh q.z q.x ∧ (∃ i : ℕ, stride ∣ i ∧ q.z = z0 + i * 50) ∧ (∃ j : ℕ, q.x = x0 + j * 50) ∧ q.z < z1 ∧ q.x < x1 := by
  refine ⟨_, _, by simp only [plotSizing, Init.arange, if_true, hs, if_false, bind, Except.bind, pure, Except.pure, (by norm_num : ¬ (50 : ℝ) = 0)]; rfl,
    fun h => by simp [h, target], fun f h => by simp [h, target], fun q => ?_⟩
  simp only [List.mem_flatMap, List.mem_map, mem_rows, arange50]
  constructor
  · rintro ⟨z, ⟨i, hi, rfl, hz⟩, x, hx, rfl⟩
    rw [List.mem_iff_getElem?] at hx
    obtain ⟨j, hj⟩ := hx
    rw [arange50] at hj
    exact ⟨rfl, ⟨i, Nat.dvd_of_mod_eq_zero hi, rfl⟩, ⟨j, hj.1⟩, hz, hj.2⟩
  · rintro ⟨hc, ⟨i, hi, hz⟩, ⟨j, hx⟩, h1, h2⟩
    refine ⟨q.z, ⟨i, Nat.mod_eq_zero_of_dvd hi, hz, h1⟩, q.x, ?_, ?_⟩
    · rw [List.mem_iff_getElem?]
      exact ⟨j, arange50.2 ⟨hx, h2⟩⟩
    · rw [← hc]

/-- **C137 (plot, coverage).** Every point of the box has a pixel less than 50 to its left, and less than `50 * stride` above it. -/
theorem C137_covers {z0 z1 x0 x1 : ℝ} (fh : ℝ → ℝ → ℝ) {stride : ℕ} (hs : stride ≠ 0) {filename : Option String} {T : Target} {px : List Pixel}
    (h : plotSizing 0 (.sizing [z0, z1, x0, x1] fh) stride filename = .ok (T, px)) {z x : ℝ} (hz0 : z0 ≤ z) (hz1 : z < z1) (hx0 : x0 ≤ x) (hx1 : x < x1) :
    ∃ q ∈ px, q.z ≤ z ∧ z < q.z + 50 * stride ∧ q.x ≤ x ∧ x < q.x + 50 := by
  obtain ⟨T', px', h', -, -, hp⟩ := C137_plot (z0 := z0) (z1 := z1) (x0 := x0) (x1 := x1) fh hs filename
  rw [h, Except.ok.injEq, Prod.mk.injEq] at h'
  obtain ⟨-, rfl⟩ := h'
  have step : ∀ {a t w : ℝ}, 0 < w → a ≤ t → ∃ i : ℕ, a + i * w ≤ t ∧ t < a + i * w + w := by
    intro a t w hw hat
    refine ⟨⌊(t - a) / w⌋₊, ?_, ?_⟩
    · have := Nat.floor_le (div_nonneg (sub_nonneg.2 hat) hw.le)
      rw [le_div_iff₀ hw] at this
      linarith
    · have := Nat.lt_floor_add_one ((t - a) / w)
      rw [div_lt_iff₀ hw] at this
      linarith
  have hst : (0 : ℝ) < stride := by exact_mod_cast Nat.pos_of_ne_zero hs
  obtain ⟨i, hi1, hi2⟩ := step (w := 50 * stride) (by linarith) hz0
  obtain ⟨j, hj1, hj2⟩ := step (w := 50) (by norm_num) hx0
  refine ⟨⟨x0 + j * 50, z0 + (stride * i : ℕ) * 50, fh _ _⟩, (hp _).2 ⟨rfl, ⟨stride * i, dvd_mul_right _ _, rfl⟩, ⟨j, rfl⟩, ?_, by linarith⟩, ?_, ?_, hj1, hj2⟩
  · push_cast; nlinarith
  · push_cast; nlinarith
  · push_cast; nlinarith

/-- **C137 (plot, other arguments).** Everything but a 2-D sizing function is refused on rank 0. -/
theorem C137_refuses (stride : ℕ) (filename : Option String) : (∃ e, plotSizing 0 .other stride filename = .error e) ∧
    ∀ bbox fh, bbox.length ≠ 4 → ∃ e, plotSizing 0 (.sizing bbox fh) stride filename = .error e := by
  refine ⟨⟨_, rfl⟩, fun bbox fh h => ?_⟩
  match bbox, h with
  | [], _ | [_], _ | [_, _], _ | [_, _, _], _ | _ :: _ :: _ :: _ :: _ :: _, _ => exact ⟨_, rfl⟩
  | [_, _, _, _], h => exact absurd rfl h

/-- **C137 is false: other ranks.** On every rank but 0, `plot_sizing_function` raises, whatever its arguments. -/
theorem C137_false_ranks {rank : ℕ} (h : rank ≠ 0) (arg : Arg) (stride : ℕ) (filename : Option String) :
    ∃ e, plotSizing rank arg stride filename = .error e := by
  simp [plotSizing, h]

/-- A sizing function on 100 m by 100 m: four pixels, two with stride 2. -/
example : ∃ T px, plotSizing 0 (.sizing [0, 100, 0, 100] fun z x => z + x) 2 (some "ef.png") = .ok (T, px) ∧ T = .file "ef.png" ∧
    (⟨50, 0, 50⟩ : Pixel) ∈ px ∧ (⟨0, 50, 50⟩ : Pixel) ∉ px := by
  obtain ⟨T, px, h, -, hf, hp⟩ := C137_plot (z0 := 0) (z1 := 100) (x0 := 0) (x1 := 100) (fun z x => z + x) (stride := 2) (by norm_num) (some "ef.png")
  refine ⟨T, px, h, hf _ rfl, (hp _).2 ⟨by norm_num, ⟨0, by norm_num⟩, ⟨1, by norm_num⟩, by norm_num, by norm_num⟩, fun hc => ?_⟩
  obtain ⟨-, ⟨i, ⟨k, rfl⟩, hi⟩, -⟩ := (hp _).1 hc
  have : (2 * k : ℝ) = 1 := by
    push_cast at hi; linarith
  have h2 : (2 * k : ℕ) = 1 := by exact_mod_cast this
  omega

end

end SM.Display
