import Verif.Props.Velocity
import Verif.Props.Initial
import Verif.Props.Generate

/-!
# C102: from a velocity file to the meshed region

The two calls of the documented workflow, `ef = get_sizing_function_from_segy(file, bbox, ...)` and
`generate_mesh(domain=Rectangle(bbox), edge_length=ef)` (or `Cube(bbox)`), put together.
-/

namespace SM.Workflow

open ReadBin (Nd)
open Velocity Sizing Gen Init MeshLoop Initial

variable {κ ρ : Type} [LinearOrder κ] [LinearOrder ρ]

/-- A `SizeFunction` object as the argument `edge_length`. -/
def asEdge {d : ℕ} (s : SizeFunction ℝ) : SizeArg (Fin d → ℝ) :=
  .sizeFunction (fun p => s.eval (List.ofFn p)) (s.bbox.map Num.flt) s.hmin

/-- What is meshed if a box is the domain and the sizing function was made for a larger box. -/
theorem setup_boxes {d : ℕ} {boxEval : List ℝ → (Fin d → ℝ) → ℝ} {b : List ℝ} {corners : Option (List (Fin d → ℝ))} {s : SizeFunction ℝ}
    {kw : Kwargs} (hull : minmax b s.bbox = s.bbox) {S : Setup (Fin d → ℝ)}
    (h : genSetup boxEval (.geometry (boxEval b) (b.map Num.flt) corners) (asEdge s) kw = .ok S) :
    S.fd = boxEval s.bbox ∧ S.bbox = s.bbox ∧ S.h0 = s.hmin ∧ S.fh = fun p => s.eval (List.ofFn p) := by
  obtain ⟨-, -, r, z, hr, hz, hm, hfh, hyes, hno, -, -, hh, -⟩ := genSetup_ok h
  obtain ⟨-, -, hr'⟩ := unpackDomain_ok hr
  rcases hr' with ⟨_, _, _, he', rfl⟩ | ⟨_, _, he', -⟩ <;> cases he'
  rcases unpackSizing_ok hz with ⟨_, _, _, he, -, rfl⟩ | ⟨_, he, _⟩ | ⟨_, he, _⟩ <;> cases he
  have e1 : (b.map Num.flt).map Num.val = b := map_val_flt b
  have e2 : (s.bbox.map Num.flt).map Num.val = s.bbox := map_val_flt _
  have hb : S.bbox = s.bbox := by
    simp only [mergeBbox, seqOf, bind, Except.bind, pure, Except.pure, e1, e2, hull] at hm
    exact (Except.ok.inj hm).symm
  refine ⟨?_, hb, hh _ rfl, hfh⟩
  by_cases hR : b = s.bbox
  · rw [hno (by simp [Rebuild, e1, e2, hR])]
    simp [hR]
  · rw [hyes (by simpa [Rebuild, e1, e2] using hR), hb]

theorem start_setup {d : ℕ} {boxEval : List ℝ → (Fin d → ℝ) → ℝ} {domain : DomainArg (Fin d → ℝ)} {edge : SizeArg (Fin d → ℝ)} {kw : Kwargs}
    {R : Generate.Rest d κ ρ} (hpts : R.points = none) {st : MeshLoop.State d}
    (hrun : Generate.generateMesh boxEval domain edge kw R 0 = .running st) :
    ∃ S, genSetup boxEval domain edge kw = .ok S ∧
      serialPoints ⟨S.h0, R.gepsMult * S.h0, Generate.pairs S.bbox, S.fd, fun _ => S.fh, Generate.fixOf R S, R.axis, S.lsf, R.r0mIsH0, R.rand⟩ =
        .ok st.p := by
  unfold Generate.generateMesh at hrun
  split at hrun
  · simp at hrun
  rename_i E p hp
  obtain ⟨S, m, hS, hq, -, -, rfl⟩ := Generate.prepare_ok hp
  simp only [run, Outcome.running.injEq] at hrun
  subst hrun
  simp only [Generate.initial, hpts] at hq
  exact ⟨S, hS, hq⟩

variable {imax : ℕ} {seps : ℝ} {f : File ℝ} {r : ReadOpts ℝ} {data : Option (Nd ℝ)} {o : Opts ℝ} {names : List String}
  {isTuple : Bool} {odd : Except Fail (Option (Out ℝ))} {s : SizeFunction ℝ} {kw : Kwargs}

theorem box_of2 {z0 z1 x0 x1 : ℝ} (hodd : ∀ out, odd ≠ .ok out)
    (hs : getSizingFunction imax seps f r data o names isTuple [z0, z1, x0, x1] odd 0 = some (.ok (some s))) :
    0 ≤ o.domainPad ∧ s.hmin = o.hmin ∧ s.bbox = [z0 - o.domainPad, z1, x0 - o.domainPad, x1 + o.domainPad] := by
  obtain ⟨hpad, hmin, hbb⟩ := C15_returned_box hodd hs
  refine ⟨hpad, hmin, ?_⟩
  rcases hbb with ⟨_, _, _, _, e, hb⟩ | ⟨_, _, _, _, _, _, e, -⟩
  · simp only [List.cons.injEq, and_true] at e
    obtain ⟨rfl, rfl, rfl, rfl⟩ := e
    exact hb
  · simp at e

theorem box_of3 {z0 z1 x0 x1 y0 y1 : ℝ} (hodd : ∀ out, odd ≠ .ok out)
    (hs : getSizingFunction imax seps f r data o names isTuple [z0, z1, x0, x1, y0, y1] odd 0 = some (.ok (some s))) :
    0 ≤ o.domainPad ∧ s.hmin = o.hmin ∧
      s.bbox = [z0 - o.domainPad, z1, x0 - o.domainPad, x1 + o.domainPad, y0 - o.domainPad, y1 + o.domainPad] := by
  obtain ⟨hpad, hmin, hbb⟩ := C15_returned_box hodd hs
  refine ⟨hpad, hmin, ?_⟩
  rcases hbb with ⟨_, _, _, _, e, -⟩ | ⟨_, _, _, _, _, _, e, hb⟩
  · simp at e
  · simp only [List.cons.injEq, and_true] at e
    obtain ⟨rfl, rfl, rfl, rfl, rfl, rfl⟩ := e
    exact hb

/-- **C102 (2-D, returned mesh).** For every velocity file or array, every set of sizing options and every `domain_pad`: the mesh
that `generate_mesh` returns for `Rectangle(bbox)` and the sizing function is a mesh of the padded box: the centroids of all its cells lie in it,
by more than `0.001 * hmin` from its sides. -/
theorem C102_region2 {z0 z1 x0 x1 : ℝ} (hodd : ∀ out, odd ≠ .ok out)
    (hs : getSizingFunction imax seps f r data o names isTuple [z0, z1, x0, x1] odd 0 = some (.ok (some s)))
    {corners : Option (List (Fin 2 → ℝ))} {R : Generate.Rest 2 κ ρ} {n k : ℕ} {p : List (Fin 2 → ℝ)} {t : List (List ℕ)}
    (h : Generate.generateMesh box2 (.geometry (Sdf.drectangle z0 z1 x0 x1) ([z0, z1, x0, x1].map Num.flt) corners) (asEdge s) kw R n = .done p t k) :
    ∀ row ∈ t, ∃ vs, Np.take p row = .ok vs ∧ ∃ cz cx, cz = (vs.map fun v => v 0).sum / 3 ∧ cx = (vs.map fun v => v 1).sum / 3 ∧
      z0 - o.domainPad + 0.001 * o.hmin < cz ∧ cz < z1 - 0.001 * o.hmin ∧
      x0 - o.domainPad + 0.001 * o.hmin < cx ∧ cx < x1 + o.domainPad - 0.001 * o.hmin := by
  obtain ⟨hpad, hmin, hb⟩ := box_of2 hodd hs
  obtain ⟨S, m, p0, hS, hp, hm, hrun⟩ := Generate.generate_done h
  obtain ⟨hfd, -, hh0, -⟩ := setup_boxes (boxEval := box2) (by
    rw [hb]; simp only [minmax, minmaxFrom, List.cons.injEq, and_true]; norm_num [hpad]) hS
  intro row hrow
  obtain ⟨vs, hvs, hlt⟩ := C58_inside (E := Generate.envOf R S m) rfl hrun row hrow
  refine ⟨vs, hvs, _, _, rfl, rfl, ?_⟩
  simp only [Generate.envOf, hfd, hb, hh0, hmin, box2, Sdf.drectangle] at hlt
  rw [neg_lt_neg_iff, lt_min_iff, lt_min_iff, lt_min_iff] at hlt
  obtain ⟨⟨⟨h1, h2⟩, h3⟩, h4⟩ := hlt
  norm_num at h1 h2 h3 h4 ⊢
  refine ⟨?_, ?_, ?_, ?_⟩ <;> linarith

/-- **C102 (2-D, first triangulation).** The first triangulation is of the fixed points followed by points of the padded box (up to a margin above), no two
of which are closer than `hmin`. -/
theorem C102_start2 {z0 z1 x0 x1 : ℝ} (hodd : ∀ out, odd ≠ .ok out) (hz : z0 ≤ z1) (hx : x0 ≤ x1) (hh : 0 < o.hmin)
    (hs : getSizingFunction imax seps f r data o names isTuple [z0, z1, x0, x1] odd 0 = some (.ok (some s)))
    {corners : Option (List (Fin 2 → ℝ))} {R : Generate.Rest 2 κ ρ} (hpts : R.points = none) {st : MeshLoop.State 2}
    (h : Generate.generateMesh box2 (.geometry (Sdf.drectangle z0 z1 x0 x1) ([z0, z1, x0, x1].map Num.flt) corners) (asEdge s) kw R 0 = .running st) :
    ∃ fix gen, st.p = fix ++ gen ∧ Spread ![z0 - o.domainPad, x0 - o.domainPad] ![z1, x1 + o.domainPad] o.hmin (R.gepsMult * o.hmin)
      (Sdf.drectangle (z0 - o.domainPad) z1 (x0 - o.domainPad) (x1 + o.domainPad)) gen := by
  obtain ⟨hpad, hmin, hb⟩ := box_of2 hodd hs
  obtain ⟨S, hS, hser⟩ := start_setup hpts h
  obtain ⟨hfd, hbb, hh0, -⟩ := setup_boxes (boxEval := box2) (by
    rw [hb]; simp only [minmax, minmaxFrom, List.cons.injEq, and_true]; norm_num [hpad]) hS
  rw [hfd, hbb, hh0, hmin, hb] at hser
  obtain ⟨n0, -, hm0, ha0, hb0, -⟩ := mgridAxis_ok hh (b := (z0 - o.domainPad, z1)) (by simp only; linarith)
  obtain ⟨n1, -, hm1, ha1, hb1, -⟩ := mgridAxis_ok hh (b := (x0 - o.domainPad, x1 + o.domainPad)) (by simp only; linarith)
  have hG := isGrid2 (h := o.hmin) ![z0 - o.domainPad, x0 - o.domainPad] ![n0, n1]
  have hraw : createStaggeredGrid o.hmin 2 (Generate.pairs [z0 - o.domainPad, z1, x0 - o.domainPad, x1 + o.domainPad]) =
      .ok (staggered2 o.hmin (gridVals (z0 - o.domainPad) o.hmin n0) (gridVals (x0 - o.domainPad) o.hmin n1)) := by
    simp only [createStaggeredGrid, Generate.pairs, hm0, hm1, bind, Except.bind, pure, Except.pure]
  obtain ⟨gen, hp, hsp, -⟩ := C98_main hser hh hraw hG (nodup_staggered2 (nodup_gridVals hh n0) (nodup_gridVals hh n1))
    (hi := ![z1, x1 + o.domainPad]) (by intro k; fin_cases k <;> simpa) (by intro k; fin_cases k <;> simpa)
  exact ⟨_, gen, hp, hsp⟩

/-- **C102 (3-D, returned mesh).** -/
theorem C102_region3 {z0 z1 x0 x1 y0 y1 : ℝ} (hodd : ∀ out, odd ≠ .ok out)
    (hs : getSizingFunction imax seps f r data o names isTuple [z0, z1, x0, x1, y0, y1] odd 0 = some (.ok (some s)))
    {corners : Option (List (Fin 3 → ℝ))} {R : Generate.Rest 3 κ ρ} {n k : ℕ} {p : List (Fin 3 → ℝ)} {t : List (List ℕ)}
    (h : Generate.generateMesh box3 (.geometry (Sdf.dblock z0 z1 x0 x1 y0 y1) ([z0, z1, x0, x1, y0, y1].map Num.flt) corners) (asEdge s) kw R n =
      .done p t k) :
    ∀ row ∈ t, ∃ vs, Np.take p row = .ok vs ∧ ∃ cz cx cy, cz = (vs.map fun v => v 0).sum / 4 ∧ cx = (vs.map fun v => v 1).sum / 4 ∧
      cy = (vs.map fun v => v 2).sum / 4 ∧
      z0 - o.domainPad + 0.001 * o.hmin < cz ∧ cz < z1 - 0.001 * o.hmin ∧
      x0 - o.domainPad + 0.001 * o.hmin < cx ∧ cx < x1 + o.domainPad - 0.001 * o.hmin ∧
      y0 - o.domainPad + 0.001 * o.hmin < cy ∧ cy < y1 + o.domainPad - 0.001 * o.hmin := by
  obtain ⟨hpad, hmin, hb⟩ := box_of3 hodd hs
  obtain ⟨S, m, p0, hS, hp, hm, hrun⟩ := Generate.generate_done h
  obtain ⟨hfd, -, hh0, -⟩ := setup_boxes (boxEval := box3) (by
    rw [hb]; simp only [minmax, minmaxFrom, List.cons.injEq, and_true]; norm_num [hpad]) hS
  intro row hrow
  obtain ⟨vs, hvs, hlt⟩ := C58_inside (E := Generate.envOf R S m) rfl hrun row hrow
  refine ⟨vs, hvs, _, _, _, rfl, rfl, rfl, ?_⟩
  simp only [Generate.envOf, hfd, hb, hh0, hmin, box3, Sdf.dblock] at hlt
  rw [neg_lt_neg_iff, lt_min_iff, lt_min_iff, lt_min_iff, lt_min_iff, lt_min_iff] at hlt
  obtain ⟨⟨⟨⟨⟨h1, h2⟩, h3⟩, h4⟩, h5⟩, h6⟩ := hlt
  norm_num at h1 h2 h3 h4 h5 h6 ⊢
  refine ⟨?_, ?_, ?_, ?_, ?_, ?_⟩ <;> linarith

/-- **C102 (3-D, first triangulation).** -/
theorem C102_start3 {z0 z1 x0 x1 y0 y1 : ℝ} (hodd : ∀ out, odd ≠ .ok out) (hz : z0 ≤ z1) (hx : x0 ≤ x1) (hy : y0 ≤ y1) (hh : 0 < o.hmin)
    (hs : getSizingFunction imax seps f r data o names isTuple [z0, z1, x0, x1, y0, y1] odd 0 = some (.ok (some s)))
    {corners : Option (List (Fin 3 → ℝ))} {R : Generate.Rest 3 κ ρ} (hpts : R.points = none) {st : MeshLoop.State 3}
    (h : Generate.generateMesh box3 (.geometry (Sdf.dblock z0 z1 x0 x1 y0 y1) ([z0, z1, x0, x1, y0, y1].map Num.flt) corners) (asEdge s) kw R 0 =
      .running st) :
    ∃ fix gen, st.p = fix ++ gen ∧ Spread ![z0 - o.domainPad, x0 - o.domainPad, y0 - o.domainPad] ![z1, x1 + o.domainPad, y1 + o.domainPad] o.hmin
      (R.gepsMult * o.hmin) (Sdf.dblock (z0 - o.domainPad) z1 (x0 - o.domainPad) (x1 + o.domainPad) (y0 - o.domainPad) (y1 + o.domainPad)) gen := by
  obtain ⟨hpad, hmin, hb⟩ := box_of3 hodd hs
  obtain ⟨S, hS, hser⟩ := start_setup hpts h
  obtain ⟨hfd, hbb, hh0, -⟩ := setup_boxes (boxEval := box3) (by
    rw [hb]; simp only [minmax, minmaxFrom, List.cons.injEq, and_true]; norm_num [hpad]) hS
  rw [hfd, hbb, hh0, hmin, hb] at hser
  obtain ⟨n0, -, hm0, ha0, hb0, -⟩ := mgridAxis_ok hh (b := (z0 - o.domainPad, z1)) (by simp only; linarith)
  obtain ⟨n1, -, hm1, ha1, hb1, -⟩ := mgridAxis_ok hh (b := (x0 - o.domainPad, x1 + o.domainPad)) (by simp only; linarith)
  obtain ⟨n2, -, hm2, ha2, hb2, -⟩ := mgridAxis_ok hh (b := (y0 - o.domainPad, y1 + o.domainPad)) (by simp only; linarith)
  have hG := isGrid3 (h := o.hmin) ![z0 - o.domainPad, x0 - o.domainPad, y0 - o.domainPad] ![n0, n1, n2]
  have hraw : createStaggeredGrid o.hmin 3
      (Generate.pairs [z0 - o.domainPad, z1, x0 - o.domainPad, x1 + o.domainPad, y0 - o.domainPad, y1 + o.domainPad]) =
      .ok (staggered3 o.hmin (gridVals (z0 - o.domainPad) o.hmin n0) (gridVals (x0 - o.domainPad) o.hmin n1)
        (gridVals (y0 - o.domainPad) o.hmin n2)) := by
    simp only [createStaggeredGrid, Generate.pairs, hm0, hm1, hm2, bind, Except.bind, pure, Except.pure]
  obtain ⟨gen, hp, hsp, -⟩ := C98_main hser hh hraw hG
    (nodup_staggered3 (nodup_gridVals hh n0) (nodup_gridVals hh n1) (nodup_gridVals hh n2))
    (hi := ![z1, x1 + o.domainPad, y1 + o.domainPad]) (by intro k; fin_cases k <;> simpa) (by intro k; fin_cases k <;> simpa)
  exact ⟨_, gen, hp, hsp⟩

/-! ### A run -/

/-- Three traces of two samples, 1 km/s to 6 km/s. -/
noncomputable def exF : File ℝ := ⟨"a.segy", 2, [[1, 2], [3, 4], [5, 6]], []⟩

/-- `hmin = hmax = 1`, `wl = 1`, velocities in km/s. -/
noncomputable def exO : Opts ℝ := { Opts.default with wl := 1, units := "km-s", hmin := 1, hmax := 1 }

/-- No options for reading. -/
noncomputable def exR : ReadOpts ℝ where
  nz := none
  nx := none
  ny := none
  byteOrder := "little"
  axesOrder := [0, 1, 2]
  width := 4
  decode := fun _ => 0

/-- The sizing function of `exF` exists; it takes the value 1 at three points. -/
theorem ex_sizing : ∃ s, getSizingFunction 10 0 exF exR none exO ["wl", "units", "hmin", "hmax"] true [0, 1, 0, 1] (.error .raised) 0 =
    some (.ok (some s)) ∧ s.bbox = [0, 1, 0, 1] ∧ s.hmin = 1 ∧ s.eval [0, 0] = 1 ∧ s.eval [0, 1] = 1 ∧ s.eval [1, 1 / 2] = 1 := by
  have ho : OnlyWavelength exO := by constructor <;> norm_num [exO, Opts.default]
  have hw : ∀ v, wantedSize exO v = 1 := by
    intro v
    simp only [wantedSize, exO]
    exact min_eq_left (le_max_left _ _)
  obtain ⟨s, hs, hb, hh, he⟩ := C84_segy_file (imax := 10) (seps := 0) (f := exF) (r := exR) (o := exO) (names := ["wl", "units", "hmin", "hmax"])
    (z0 := 0) (z1 := 1) (x0 := 0) (x1 := 1) (odd := .error .raised) (by decide +kernel) (by simp [exF]) (by simp [exF]) (by simp [exF])
    (by norm_num) (by norm_num) (by decide +kernel) ho (by
      intro t ht v hv
      have hu : unitFactor (K := ℝ) exO.units = 1000 := by simp [unitFactor, exO]
      rw [hu]
      simp only [exF, List.mem_cons, List.not_mem_nil, or_false] at ht
      rcases ht with rfl | rfl | rfl <;> simp only [List.mem_cons, List.not_mem_nil, or_false] at hv <;>
        rcases hv with rfl | rfl <;> norm_num)
  refine ⟨s, hs, hb, hh, ?_, ?_, ?_⟩
  · have := he 0 (by simp [exF]) 1 (by simp [exF])
    rw [hw] at this
    norm_num [exF] at this
    exact this
  · have := he 2 (by simp [exF]) 1 (by simp [exF])
    rw [hw] at this
    norm_num [exF] at this
    exact this
  · have := he 1 (by simp [exF]) 0 (by simp [exF])
    rw [hw] at this
    norm_num [exF] at this
    norm_num
    exact this

/-- The workflow on `exF`: the first triangulation is of three points. -/
theorem ex_start (T : Tools 2 κ ρ) : ∃ s, getSizingFunction 10 0 exF exR none exO ["wl", "units", "hmin", "hmax"] true [0, 1, 0, 1] (.error .raised) 0 =
    some (.ok (some s)) ∧
    Generate.generateMesh box2 (.geometry (Sdf.drectangle 0 1 0 1) ([0, 1, 0, 1].map Num.flt) none) (asEdge s) []
      ⟨none, none, [], 0, 0.1, 0.1, false, ⟨true, true, true⟩, fun _ => 1 / 2, T, fun p => (p, [[0, 1, 2]]), 1 / 2 ^ 52, 1 / 2 ^ 26⟩ 0 =
      .running ⟨0, [![0, 0], ![0, 1], ![1, 1 / 2]], 0⟩ := by
  obtain ⟨s, hs, hb, hh, e1, e2, e3⟩ := ex_sizing
  refine ⟨s, hs, ?_⟩
  have hS : Gen.genSetup (P := Fin 2 → ℝ) box2 (.geometry (Sdf.drectangle 0 1 0 1) ([0, 1, 0, 1].map Num.flt) none) (asEdge s)
      [] = .ok ⟨Sdf.drectangle 0 1 0 1, fun p => s.eval (List.ofFn p), [0, 1, 0, 1], 1, none, true, (true, false)⟩ := by
    simp [asEdge, hb, hh, Gen.genSetup, Gen.parseKwargs, Gen.getOpt, Gen.defaults, Gen.asNum, Gen.Num.val, Gen.selectVerbosity, Gen.unpackDomain,
      Gen.unpackSizing, Gen.checkBbox, Gen.checkFloats, Gen.mergeBbox, Gen.Rebuild, seqOf, minmax, minmaxFrom, bind, Except.bind, pure, Except.pure,
      List.lookup]
  have hm : Gen.maxIterOf [] = .ok 50 := by
    simp [Gen.maxIterOf, Gen.getOpt, Gen.defaults, Gen.asNum, Gen.Num.val, bind, Except.bind, pure, Except.pure, List.lookup]
  have hc : gridCount 0 (1 + 1) 1 = 2 := by norm_num [gridCount]
  have hg : gridVals 0 1 2 = [0, 1] := by simp [gridVals, List.range_succ]
  have hax : mgridAxis 1 (0, 1) = .ok [0, 1] := by
    simp only [mgridAxis, hc]; norm_num; exact hg
  have hst : staggered2 1 [0, 1] [0, 1] = [![0, 0], ![0, 1], ![1, 1 / 2], ![1, 3 / 2]] := by
    norm_num [staggered2, shift, List.zipIdx]
  have hraw : rawPoints 1 2 1 0 0 [(0, 1), (0, 1)] true = .ok [![0, 0], ![0, 1], ![1, 1 / 2], ![1, 3 / 2]] := by
    rw [rawPoints_serial]
    simp only [createStaggeredGrid, hax, bind, Except.bind, pure, Except.pure, hst]
  have hin : inside (Sdf.drectangle 0 1 0 1) (0.1 * 1) [![0, 0], ![0, 1], ![1, 1 / 2], ![1, 3 / 2]] = [![0, 0], ![0, 1], ![1, 1 / 2]] := by
    norm_num [inside, Sdf.drectangle, List.filter_cons]
  have hini : serialPoints (d := 2) ⟨1, 0.1 * 1, [(0, 1), (0, 1)], Sdf.drectangle 0 1 0 1, fun _ p => s.eval (List.ofFn p), [], 0, true, false,
      fun _ => 1 / 2⟩ = .ok [![0, 0], ![0, 1], ![1, 1 / 2]] := by
    have o1 : s.eval (List.ofFn (![0, 0] : Fin 2 → ℝ)) = 1 := by simpa using e1
    have o2 : s.eval (List.ofFn (![0, 1] : Fin 2 → ℝ)) = 1 := by simpa using e2
    have o3 : s.eval (List.ofFn (![1, 1 / 2] : Fin 2 → ℝ)) = 1 := by simpa using e3
    simp only [serialPoints, candidates, hraw, hin, bind, Except.bind, pure, Except.pure, rankR0m, localR0m, minOf, rankPoints, reject, List.map, o1, o2, o3,
      List.zipIdx, List.filter]
    norm_num
  unfold Generate.generateMesh
  simp only [Generate.prepare, hS, Generate.initial, Generate.fixOf, fixedPoints, unpackPfix, Generate.pairs, hini, hm, bind, Except.bind, pure, Except.pure, run]
  simp

example (T : Tools 2 (List ℝ) (List ℕ)) : ∃ fix gen, ([![0, 0], ![0, 1], ![1, 1 / 2]] : List (Fin 2 → ℝ)) = fix ++ gen ∧
    Spread ![0 - 0, 0 - 0] ![1, 1 + 0] 1 (0.1 * 1) (Sdf.drectangle (0 - 0) 1 (0 - 0) (1 + 0)) gen := by
  obtain ⟨s, hs, hrun⟩ := ex_start T
  exact C102_start2 (by simp) (by norm_num) (by norm_num) (by simp [exO]) hs rfl hrun

end SM.Workflow
