import Verif.Model.Velocity
import Verif.Props.Interp
import Verif.Props.ReadBin
import Mathlib.Tactic.IntervalCases

/-!
# C84-C87: from a velocity file to mesh sizes
-/

set_option linter.unusedSectionVars false

namespace SM.Velocity

open SM.ReadBin SM.Sizing SM.Interp

variable {K : Type} [Field K] [LinearOrder K] [IsStrictOrderedRing K] [FloorSemiring K]

/-! ### specification vocabulary -/

/-- What the option `units` multiplies the velocities by to get m/s. -/
def unitFactor (u : String) : K :=
  if u = "km-s" then 1000 else if u = "ft-s" then 3 / 10 else 1

/-- Only the wavelength option is active. -/
structure OnlyWavelength (o : Opts K) : Prop where
  wl : 0 < o.wl
  freq : 0 < o.freq
  grad : o.grad = 0
  dt : o.dt = 0
  grade : o.grade = 0
  pad : o.domainPad = 0

/-- The size asked for where the file has velocity `v`: `wl` cells per wavelength `v / freq`, at most
99999, kept within `[hmin, hmax]`. -/
def wantedSize (o : Opts K) (v : K) : K :=
  min o.hmax (max o.hmin (min (v * unitFactor o.units / (o.freq * o.wl)) 99999))

/-! ### lemmas -/

theorem convertUnits_eq (u : String) (vp : Arr K) (i j k : ℕ) :
    convertUnits u vp i j k = vp i j k * unitFactor u := by
  unfold convertUnits unitFactor
  split_ifs <;> simp

theorem replaceWater_none {d0 d1 d2 : ℕ} {w : Option K} {vp : Arr K}
    (h : ¬ HasZeroOffRow0 d0 d1 d2 vp) : replaceWater d0 d1 d2 w vp = .ok vp := by
  unfold replaceWater
  rw [if_neg (by rw [waterGuard_iff]; exact h)]

theorem checkNames_ok {names : List String} (h : ∀ n ∈ names, n ∈ knownOptions) :
    checkNames names = .ok () := by
  unfold checkNames
  rw [if_pos (by simpa using h)]

theorem sizing_wl {imax : ℕ} {seps : K} {d0 d1 d2 : ℕ} {o : Opts K} {names : List String}
    {bbox : List K} {bb : Bbox K} {vp : Arr K} (ho : OnlyWavelength o)
    (hn : ∀ n ∈ names, n ∈ knownOptions) (hb : parseBbox bbox = .ok bb)
    (hv : AllNodes d0 d1 d2 fun i j k => 1 / 1000 ≤ vp i j k * unitFactor o.units) :
    ∃ cell, sizing imax seps d0 d1 d2 o names bbox vp =
        .ok (some ⟨d0, d1, d2, cell, convertUnits o.units vp, bb⟩) ∧
      AllNodes d0 d1 d2 fun i j k => cell i j k = wantedSize o (vp i j k) := by
  have hw : replaceWater d0 d1 d2 o.vpWater (convertUnits o.units vp) =
      .ok (convertUnits o.units vp) := by
    refine replaceWater_none ?_
    rintro ⟨i, hi, j, hj, k, hk, -, h⟩
    rw [convertUnits_eq] at h
    exact absurd (hv i hi j hj k hk) (not_le.2 h)
  have hfw : o.freq * o.wl ≠ 0 := (mul_pos ho.freq ho.wl).ne'
  have hreq : requested d0 d1 d2 o (convertUnits o.units vp) = .ok fun i j k =>
      .fin (min (vp i j k * unitFactor o.units / (o.freq * o.wl)) 99999) := by
    unfold requested wavelengthSizing gradientSizing
    rw [if_pos (Or.inl ho.wl), if_neg ho.wl.ne', if_neg (not_lt.2 ho.wl.le),
      if_neg (not_lt.2 ho.freq.le), if_pos ho.grad]
    simp only [fdiv, if_neg hfw, fmin, convertUnits_eq]
  obtain ⟨cell, hcell⟩ := finite_isSome (d0 := d0) (d1 := d1) (d2 := d2)
    (A := fun i j k => clamp o.hmin o.hmax
      (.fin (min (vp i j k * unitFactor o.units / (o.freq * o.wl)) 99999)))
    (fun i _ j _ k _ => ⟨_, clamp_fin _ _ _⟩)
  refine ⟨cell, ?_, ?_⟩
  · unfold sizing
    simp only [hw, hb, checkNames_ok hn, hreq, hcell, courant, ho.dt, gradation,
      Limgrad.enforceGradation, ho.grade, buildPad, ho.pad]
    simp
  · intro i hi j hj k hk
    have := finite_some hcell hi hj hk
    rw [clamp_fin] at this
    simp only [Fl.fin.injEq] at this
    rw [← this]; rfl

/-- Height of the `i`-th sample from the top. -/
theorem node_from_top {z0 z1 : K} {n : ℕ} (hn : 2 ≤ n) {i : ℕ} (hi : i < n) :
    (linspace z0 z1 n).node (n - 1 - i) = z1 - i * ((z1 - z0) / ((n : K) - 1)) := by
  have hne : ((n : K) - 1) ≠ 0 := by
    have : (2 : K) ≤ n := by exact_mod_cast hn
    have : (0 : K) < (n : K) - 1 := by linarith
    exact this.ne'
  simp only [linspace]
  rw [Nat.cast_sub (by omega), Nat.cast_sub (by omega), Nat.cast_one]
  field_simp
  ring

/-! ### C84 -/

/-- **C84 (binary file).** For every binary file, every byte order, axes order, sort style, units and
grid: the sizing function built with the wavelength option alone takes, at the node `i` samples
below the top, `j` along x and `k` along y, the size asked for by the item the file holds for
`(i, j, k)`. -/
theorem C84_binary_file {imax : ℕ} {seps : K} {f : File K} {r : ReadOpts K} {o : Opts K}
    {names : List String} {z0 z1 x0 x1 y0 y1 : K} {odd : Except Fail (Option (Out K))}
    {nz nx ny a0 a1 a2 : ℕ} {xs : List K}
    (hname : f.name.endsWith ".segy" = false)
    (hnz : r.nz = some nz) (hnx : r.nx = some nx) (hny : r.ny = some ny)
    (hao : r.axesOrder = [a0, a1, a2]) (hp : [a0, a1, a2].Perm [0, 1, 2])
    (hs : r.axesOrderSort = "F" ∨ r.axesOrderSort = "C")
    (hf : fromfile r.width r.decode r.byteOrder f.bytes = .ok xs) (hlen : xs.length = nz * nx * ny)
    (nz2 : 2 ≤ nz) (nx2 : 2 ≤ nx) (ny2 : 2 ≤ ny) (hz : z0 < z1) (hx : x0 < x1) (hy : y0 < y1)
    (hn : ∀ n ∈ names, n ∈ knownOptions) (ho : OnlyWavelength o)
    (hv : ∀ v ∈ xs, 1 / 1000 ≤ v * unitFactor o.units) :
    ∃ s : SizeFunction K,
      getSizingFunction imax seps f r none o names true [z0, z1, x0, x1, y0, y1] odd 0 =
        some (.ok (some s)) ∧
      s.bbox = [z0, z1, x0, x1, y0, y1] ∧ s.hmin = o.hmin ∧
      ∀ D0 D1 D2 f0 f1 f2 i j k : ℕ,
        [D0, D1, D2][a0]? = some nz → [D0, D1, D2][a1]? = some nx → [D0, D1, D2][a2]? = some ny →
        [f0, f1, f2][a0]? = some i → [f0, f1, f2][a1]? = some j → [f0, f1, f2][a2]? = some k →
        i < nz → j < nx → k < ny →
        ∃ v, xs[filePos r.axesOrderSort D0 D1 D2 f0 f1 f2]? = some v ∧
          s.eval [z1 - i * ((z1 - z0) / ((nz : K) - 1)), x0 + j * ((x1 - x0) / ((nx : K) - 1)),
            y0 + k * ((y1 - y0) / ((ny : K) - 1))] = wantedSize o v := by
  obtain ⟨a, ha, hsh, hget⟩ := C17_read_bin hp hs hf hlen
  obtain ⟨a', pos, ha', hin, -⟩ := C17_one_to_one hp hs hf hlen
  obtain rfl : a = a' := by rw [ha] at ha'; simpa using ha'
  have hval : ∀ i j k, i < nz → j < nx → k < ny → ∃ v ∈ xs, a.get [i, j, k] = some v := by
    intro i j k hi hj hk
    obtain ⟨hl, e⟩ := hin i j k hi hj hk
    exact ⟨_, List.getElem_mem hl, e⟩
  obtain ⟨cell, hsz, hcell⟩ := sizing_wl (imax := imax) (seps := seps) (d0 := nz) (d1 := nx)
    (d2 := ny) (o := o) (names := names) (bbox := [z0, z1, x0, x1, y0, y1])
    (vp := fun i j k => (a.get [i, j, k]).getD 0) ho hn rfl (by
      intro i hi j hj k hk
      obtain ⟨v, hv', e⟩ := hval i j k hi hj hk
      simp only [e, Option.getD_some]; exact hv v hv')
  have hload : load f r none = .ok (a, some nz, some nx, some ny) := by
    simp only [load, readVelocityModel, hname, hnz, hnx, hny, hao, ha]; simp
  have hvp := (sizing_some hsz)
  obtain ⟨vp, bb, req, c0, c1, c2, hw, hb, -⟩ := hvp
  have hG : getSizing imax seps f r none o names [z0, z1, x0, x1, y0, y1] odd =
      .ok (some ⟨nz, nx, ny, cell, convertUnits o.units (fun i j k => (a.get [i, j, k]).getD 0),
        .three z0 z1 x0 x1 y0 y1⟩) := by
    unfold getSizing
    simp only [hload, asArr, hsh, hw, parseBbox, gridShape, hsz, if_true]
  refine ⟨⟨[z0, z1, x0, x1, y0, y1], sizeEval ⟨nz, nx, ny, cell,
    convertUnits o.units (fun i j k => (a.get [i, j, k]).getD 0), .three z0 z1 x0 x1 y0 y1⟩, o.hmin⟩,
    ?_, rfl, rfl, ?_⟩
  · unfold getSizingFunction
    simp [hG, mkSizeFunction, Bbox.toList]
  · intro D0 D1 D2 f0 f1 f2 i j k p0 p1 p2 q0 q1 q2 hi hj hk
    have e := hget D0 D1 D2 f0 f1 f2 i j k p0 p1 p2 q0 q1 q2 hi hj hk
    obtain ⟨v, -, ev⟩ := hval (nz - 1 - i) j k (by omega) hj hk
    refine ⟨v, by rw [← e, ev], ?_⟩
    have hnode := C19_reproduces_nodes (axes nz nx ny (.three z0 z1 x0 x1 y0 y1))
      (by simp only [axes, List.mem_cons, List.not_mem_nil, or_false, forall_eq_or_imp, forall_eq]
          exact ⟨linspace_good nz2 hz, linspace_good nx2 hx, linspace_good ny2 hy⟩)
      [nz - 1 - i, j, k] ⟨show nz - 1 - i < nz by omega, hj, hk, trivial⟩ (ofArr cell)
    have hc := hcell (nz - 1 - i) (by omega) j hj k hk
    simp only [ev, Option.getD_some] at hc
    simp only [sizeEval]
    rw [← hc, ← node_from_top nz2 hi]
    exact hnode

/-- **C84 (SEG-Y file).** The same for a SEG-Y file: at the node `i` samples below the top of
trace `j` the size is the one asked for by sample `i` of trace `j`. -/
theorem C84_segy_file {imax : ℕ} {seps : K} {f : File K} {r : ReadOpts K} {o : Opts K}
    {names : List String} {z0 z1 x0 x1 : K} {odd : Except Fail (Option (Out K))}
    (hname : f.name.endsWith ".segy" = true)
    (htr : ∀ t ∈ f.traces, t.length = f.samples)
    (nz2 : 2 ≤ f.samples) (nx2 : 2 ≤ f.traces.length) (hz : z0 < z1) (hx : x0 < x1)
    (hn : ∀ n ∈ names, n ∈ knownOptions) (ho : OnlyWavelength o)
    (hv : ∀ t ∈ f.traces, ∀ v ∈ t, 1 / 1000 ≤ v * unitFactor o.units) :
    ∃ s : SizeFunction K,
      getSizingFunction imax seps f r none o names true [z0, z1, x0, x1] odd 0 =
        some (.ok (some s)) ∧
      s.bbox = [z0, z1, x0, x1] ∧ s.hmin = o.hmin ∧
      ∀ (j : ℕ) (hj : j < f.traces.length) (i : ℕ) (hi : i < f.traces[j].length),
        s.eval [z1 - i * ((z1 - z0) / ((f.samples : K) - 1)),
          x0 + j * ((x1 - x0) / ((f.traces.length : K) - 1))] = wantedSize o f.traces[j][i] := by
  obtain ⟨a, ha, hsh, hcol⟩ := C18_read_segy f.samples f.traces htr
  set nz := f.samples with hnz
  set nx := f.traces.length with hnx
  have hval : ∀ (i j : ℕ) (hi : i < nz) (hj : j < nx), a.get [i, j] =
      some (f.traces[j][nz - 1 - i]'(by rw [htr _ (List.getElem_mem hj)]; omega)) := by
    intro i j hi hj
    have hl := htr _ (List.getElem_mem hj)
    have := congrArg (fun l => l[i]?) (hcol j hj)
    simp only [List.getElem?_map, List.getElem?_range hi, Option.map_some,
      List.getElem?_reverse (l := f.traces[j]) (i := i) (by omega)] at this
    rw [hl, List.getElem?_eq_getElem (by omega)] at this
    simpa using this
  obtain ⟨cell, hsz, hcell⟩ := sizing_wl (imax := imax) (seps := seps) (d0 := nz) (d1 := nx)
    (d2 := 1) (o := o) (names := names) (bbox := [z0, z1, x0, x1])
    (vp := fun i j _ => (a.get [i, j]).getD 0) ho hn rfl (by
      intro i hi j hj k hk
      simp only [hval i j hi hj, Option.getD_some]
      exact hv _ (List.getElem_mem hj) _ (List.getElem_mem _))
  have hload : load f r none = .ok (a, some nz, some nx, some 0) := by
    simp only [load, readVelocityModel, hname, if_true, ← hnz, ha]
  obtain ⟨vp, bb, req, c0, c1, c2, hw, hb, -⟩ := sizing_some hsz
  have hG : getSizing imax seps f r none o names [z0, z1, x0, x1] odd =
      .ok (some ⟨nz, nx, 1, cell, convertUnits o.units (fun i j _ => (a.get [i, j]).getD 0),
        .two z0 z1 x0 x1⟩) := by
    unfold getSizing
    simp only [hload, asArr, hsh, hw, parseBbox, gridShape, hsz, if_true]
  refine ⟨⟨[z0, z1, x0, x1], sizeEval ⟨nz, nx, 1, cell,
    convertUnits o.units (fun i j _ => (a.get [i, j]).getD 0), .two z0 z1 x0 x1⟩, o.hmin⟩,
    ?_, rfl, rfl, ?_⟩
  · unfold getSizingFunction
    simp [hG, mkSizeFunction, Bbox.toList]
  · intro j hj i hi
    have hi' : i < nz := by rwa [htr _ (List.getElem_mem hj)] at hi
    have hnode := C19_reproduces_nodes (axes nz nx 1 (.two z0 z1 x0 x1))
      (by simp only [axes, List.mem_cons, List.not_mem_nil, or_false, forall_eq_or_imp, forall_eq]
          exact ⟨linspace_good nz2 hz, linspace_good nx2 hx⟩)
      [nz - 1 - i, j] ⟨show nz - 1 - i < nz by omega, hj, trivial⟩ (ofArr cell)
    have hc := hcell (nz - 1 - i) (by omega) j hj 0 one_pos
    simp only [hval (nz - 1 - i) j (by omega) hj, Option.getD_some,
      show nz - 1 - (nz - 1 - i) = i by omega] at hc
    simp only [sizeEval]
    rw [← hc, ← node_from_top nz2 hi']
    exact hnode

/-- A SEG-Y file with two traces of two samples, in km/s. -/
def exFile : File ℚ := ⟨"a.segy", 2, [[1, 2], [3, 4]], []⟩

/-- A binary file with eight one-byte items, in km/s. -/
def exBin : File ℚ := ⟨"a.bin", 0, [], [1, 2, 3, 4, 5, 6, 7, 8]⟩

/-- One byte per item. -/
def exRead : ReadOpts ℚ where
  nz := some 2
  nx := some 2
  ny := some 2
  byteOrder := "big"
  axesOrder := [2, 0, 1]
  width := 1
  decode := fun b => ((b.map UInt8.toNat).sum : ℕ)

/-- `wl = 1`, velocities in km/s, everything else as by default. -/
def exOpts : Opts ℚ := { Opts.default with wl := 1, units := "km-s" }

theorem exOpts_only : OnlyWavelength exOpts := by
  constructor <;> norm_num [exOpts, Opts.default]

/-- The hypotheses of `C84_segy_file` hold for `exFile`. -/
example : exFile.name.endsWith ".segy" = true ∧ (∀ t ∈ exFile.traces, t.length = exFile.samples) ∧
    2 ≤ exFile.samples ∧ 2 ≤ exFile.traces.length ∧ OnlyWavelength exOpts ∧
    (∀ t ∈ exFile.traces, ∀ v ∈ t, 1 / 1000 ≤ v * unitFactor exOpts.units) ∧
    (∀ n ∈ ["wl", "units"], n ∈ knownOptions) := by
  refine ⟨by decide +kernel, by decide +kernel, by decide +kernel, by decide +kernel, exOpts_only,
    by decide +kernel, by decide +kernel⟩

/-- The hypotheses of `C84_binary_file` hold for `exBin`. -/
example : exBin.name.endsWith ".segy" = false ∧ [2, 0, 1].Perm [0, 1, 2] ∧
    fromfile exRead.width exRead.decode exRead.byteOrder exBin.bytes =
      .ok [1, 2, 3, 4, 5, 6, 7, 8] ∧
    (∀ v ∈ ([1, 2, 3, 4, 5, 6, 7, 8] : List ℚ), 1 / 1000 ≤ v * unitFactor exOpts.units) := by
  refine ⟨by decide +kernel, by decide, ?_, by decide +kernel⟩
  simp [fromfile, exRead, exBin, chunks]

/-! ### C85 -/

/-- **C85 (partial).** If the velocities are in m/s and none below 1e-3 lies below the first row,
then `write_velocity_model` with the same file, reading options, bbox and padding writes exactly the
velocity array from which `get_sizing_function_from_segy` computed its sizes, labels it with its
shape and with "m/s". Missing: other units (`C85_units_ignored`), water nodes
(`C85_water_not_filled`). -/
theorem C85_written_model_partial {imax : ℕ} {seps : K} {f : File K} {r : ReadOpts K} {o : Opts K}
    {names : List String} {bbox : List K} {out : Out K} {ofname : Option String}
    {odd : Except Fail (H5 K)}
    (hu : o.units ≠ "km-s" ∧ o.units ≠ "ft-s")
    (hz : ∀ a nz nx ny, load f r none = .ok (a, nz, nx, ny) → ∀ d0 d1 d2 vp,
      asArr a = some (d0, d1, d2, vp) → ¬ HasZeroOffRow0 d0 d1 d2 vp)
    (h : getSizing imax seps f r none o names bbox (.error .raised) = .ok (some out)) :
    ∃ h5, writeModel f r ofname o.domainPad o.padStyle (some bbox) odd = .ok h5 ∧
      h5.shape = (if bbox.length = 4 then [out.d0, out.d1] else [out.d0, out.d1, out.d2]) ∧
      (∀ i j k, h5.data i j k = out.vp i j k) ∧ h5.shapeAttr = h5.shape ∧ h5.units = "m/s" ∧
      h5.name = (match ofname with | some n => n | none => f.name) ++ ".hdf5" := by
  have hname : (match ofname with | some n => n | none => f.name) = ofname.getD f.name := by
    cases ofname <;> rfl
  unfold getSizing at h
  cases hl : load f r none with
  | error e => rw [hl] at h; cases h
  | ok t =>
  obtain ⟨a, nz, nx, ny⟩ := t
  rw [hl] at h
  cases ha : asArr a with
  | none => simp only [ha] at h; cases h
  | some t =>
  obtain ⟨d0, d1, d2, vp⟩ := t
  simp only [ha] at h
  have hcu : convertUnits o.units vp = vp := by
    unfold convertUnits; rw [if_neg hu.1, if_neg hu.2]
  have hrw := replaceWater_none (w := o.vpWater) (hz a nz nx ny hl d0 d1 d2 vp ha)
  rw [hcu, hrw] at h
  cases hb : parseBbox bbox with
  | error e => simp only [hb] at h; cases h
  | ok bb =>
  simp only [hb] at h
  cases hg : gridShape bb nz nx ny with
  | none => simp only [hg] at h; cases h
  | some shape =>
  simp only [hg] at h
  split_ifs at h with hsh hsh2
  cases hsz : sizing imax seps d0 d1 d2 o names bbox vp with
  | error e => rw [hsz] at h; cases h
  | ok x =>
  rw [hsz] at h
  obtain rfl : x = some out := by simpa using h
  obtain ⟨vp', bb', req, c0, c1, cell, hw, hb', -, -, -, -, -, hpad⟩ := sizing_some hsz
  rw [hcu, hrw] at hw
  obtain rfl : vp = vp' := by simpa using hw
  rw [hb] at hb'
  obtain rfl : bb = bb' := by simpa using hb'
  -- the shape and the bbox
  have hdim : bboxFor a.shape.length bbox = some bb ∧
      a.shape = (if bbox.length = 4 then [d0, d1] else [d0, d1, d2]) ∧
      a.shape.length = (if bbox.length = 4 then 2 else 3) := by
    unfold parseBbox at hb
    split at hb
    · simp only [Except.ok.injEq] at hb
      subst hb
      cases nz <;> cases nx <;> simp [gridShape] at hg
      subst hg
      simp only [asArr, hsh, Option.some.injEq, Prod.mk.injEq] at ha
      obtain ⟨rfl, rfl, -, -⟩ := ha
      simp [hsh, bboxFor]
    · simp only [Except.ok.injEq] at hb
      subst hb
      cases nz <;> cases nx <;> cases ny <;> simp [gridShape] at hg
      subst hg
      simp only [asArr, hsh, Option.some.injEq, Prod.mk.injEq] at ha
      obtain ⟨rfl, rfl, rfl, -⟩ := ha
      simp [hsh, bboxFor]
    · cases hb
  obtain ⟨hbf, hshape, hlen⟩ := hdim
  rw [hname]
  unfold writeModel
  simp only [hl, ha]
  rcases buildPad_ok hpad with ⟨hp0, rfl⟩ | ⟨hp, st, b0, b1, b2, hst, e0, e1, e2, -, ev⟩
  · rw [if_neg (by rw [hp0]; exact lt_irrefl _)]
    exact ⟨_, rfl, hshape, fun _ _ _ => rfl, rfl, rfl, rfl⟩
  · rw [if_pos hp]
    simp only [hbf]
    obtain ⟨out', h', g0, g1, g2, gv⟩ : ∃ out', buildPad d0 d1 d2 vp vp bb o.domainPad o.padStyle =
        .ok out' ∧ out'.d0 = out.d0 ∧ out'.d1 = out.d1 ∧ out'.d2 = out.d2 ∧ out'.vp = out.vp := by
      unfold buildPad at hpad ⊢
      rw [if_neg (not_lt.2 hp.le), if_pos hp, hst] at hpad ⊢
      cases bb <;> simp only [Except.ok.injEq] at hpad ⊢ <;> subst hpad <;>
        exact ⟨_, rfl, rfl, rfl, rfl, rfl⟩
    simp only [h', hlen, shapeOf, g0, g1, g2, gv]
    refine ⟨_, rfl, ?_, fun _ _ _ => rfl, rfl, rfl, rfl⟩
    simp only
    split_ifs <;> simp_all

/-- The call returned an array for which `P` holds. -/
def retAnd {A : Type} (x : Except Fail (Option A)) (P : A → Bool) : Bool :=
  match x with
  | .ok (some a) => P a
  | _ => false

theorem retAnd_spec {A : Type} {x : Except Fail (Option A)} {P : A → Bool} (h : retAnd x P = true) :
    ∃ a, x = .ok (some a) ∧ P a = true := by
  unfold retAnd at h
  split at h
  · exact ⟨_, rfl, h⟩
  · cases h

/-- The hypotheses of `C85_written_model_partial` hold for a file in m/s, with padding. -/
example : ∃ out, getSizing 10 0 exFile exRead none
    { exOpts with units := "m-s", domainPad := 1, hmin := 1 } ["wl"] [0, 1, 0, 1]
    (.error .raised) = .ok (some out) := by
  obtain ⟨out, h, -⟩ := retAnd_spec (x := getSizing 10 0 exFile exRead none
    { exOpts with units := "m-s", domainPad := 1, hmin := 1 } ["wl"] [0, 1, 0, 1]
    (.error .raised)) (P := fun _ => true) (by decide +kernel)
  exact ⟨out, h⟩

example : ∀ a nz nx ny, load exFile exRead none = .ok (a, nz, nx, ny) → ∀ d0 d1 d2 vp,
    asArr a = some (d0, d1, d2, vp) → ¬ HasZeroOffRow0 d0 d1 d2 vp := by
  intro a nz nx ny h d0 d1 d2 vp hv
  have hd : "a.segy".endsWith ".segy" = true := by decide +kernel
  obtain ⟨a', h1, h2, h3⟩ := C18_read_segy 2 ([[1, 2], [3, 4]] : List (List ℚ)) (by decide)
  simp only [load, exFile, readVelocityModel, hd, if_true, h1, Except.ok.injEq, Prod.mk.injEq] at h
  obtain ⟨rfl, -⟩ := h
  have e0 := h3 0 (by decide)
  have e1 := h3 1 (by decide)
  simp only [List.range_succ, List.range_zero, List.nil_append, List.map_cons, List.map_nil,
    List.cons_append, List.cons.injEq, and_true, List.getElem_cons_zero, List.getElem_cons_succ,
    List.reverse_cons, List.reverse_nil] at e0 e1
  simp only [asArr, h2, Option.some.injEq, Prod.mk.injEq] at hv
  obtain ⟨rfl, rfl, rfl, rfl⟩ := hv
  rintro ⟨i, hi, j, hj, k, hk, -, h⟩
  have hj' : j < 2 := hj
  interval_cases i <;> interval_cases j <;> simp only [e0, e1, Option.getD_some] at h <;> norm_num at h

/-- **C85, negation (units).** A file in km/s: the sizes are computed from 2000 m/s at the node
where the written file, labelled "m/s", has 2. -/
theorem C85_units_ignored :
    ∃ (out : Out ℚ) (h5 : H5 ℚ),
      getSizing 10 0 exFile exRead none exOpts ["wl", "units"] [0, 1, 0, 1] (.error .raised) =
        .ok (some out) ∧
      writeModel exFile exRead none 0 "edge" none (.error .raised) = .ok h5 ∧
      out.vp 0 0 0 = 2000 ∧ h5.data 0 0 0 = 2 ∧ h5.units = "m/s" := by
  obtain ⟨out, h1, h2⟩ := retAnd_spec (x := getSizing 10 0 exFile exRead none exOpts ["wl", "units"]
    [0, 1, 0, 1] (.error .raised)) (P := fun out => decide (out.vp 0 0 0 = 2000)) (by decide +kernel)
  obtain ⟨h5, h3, h4⟩ := retAnd_spec (x := (writeModel exFile exRead none 0 "edge" none
    (.error .raised)).map some) (P := fun h => decide (h.data 0 0 0 = 2 ∧ h.units = "m/s"))
    (by decide +kernel)
  obtain ⟨h5', h6⟩ : ∃ x, writeModel exFile exRead none 0 "edge" none (.error .raised) = .ok x := by
    cases hw : writeModel exFile exRead none 0 "edge" none (.error .raised) with
    | error e => rw [hw] at h3; cases h3
    | ok x => exact ⟨x, rfl⟩
  rw [h6] at h3
  obtain rfl : h5' = h5 := by simpa [Except.map] using h3
  exact ⟨out, h5', h1, h6, by simpa using h2, by simpa using h4⟩

/-- A SEG-Y file with a zero (water in shear velocity) as its first sample. -/
def exWater : File ℚ := ⟨"a.segy", 2, [[0, 2000], [3000, 4000]], []⟩

/-- **C85, negation (water).** The sizes are computed from 1500 m/s at the node where the written
file has 0. -/
theorem C85_water_not_filled :
    ∃ (out : Out ℚ) (h5 : H5 ℚ),
      getSizing 10 0 exWater exRead none Opts.default [] [0, 1, 0, 1] (.error .raised) =
        .ok (some out) ∧
      writeModel exWater exRead none 0 "edge" none (.error .raised) = .ok h5 ∧
      out.vp 1 0 0 = 1500 ∧ h5.data 1 0 0 = 0 := by
  obtain ⟨out, h1, h2⟩ := retAnd_spec (x := getSizing 10 0 exWater exRead none Opts.default []
    [0, 1, 0, 1] (.error .raised)) (P := fun out => decide (out.vp 1 0 0 = 1500)) (by decide +kernel)
  obtain ⟨h5, h3, h4⟩ := retAnd_spec (x := (writeModel exWater exRead none 0 "edge" none
    (.error .raised)).map some) (P := fun h => decide (h.data 1 0 0 = 0)) (by decide +kernel)
  obtain ⟨h5', h6⟩ : ∃ x, writeModel exWater exRead none 0 "edge" none (.error .raised) = .ok x := by
    cases hw : writeModel exWater exRead none 0 "edge" none (.error .raised) with
    | error e => rw [hw] at h3; cases h3
    | ok x => exact ⟨x, rfl⟩
  rw [h6] at h3
  obtain rfl : h5' = h5 := by simpa [Except.map] using h3
  exact ⟨out, h5', h1, h6, by simpa using h2, by simpa using h4⟩

/-! ### C86 -/

/-- **C86 (partial).** Passing an array as `velocity_data`, together with its shape as `nz`, `nx`,
`ny`, gives the outcome of reading it from a file. Missing: `nz`, `nx`, `ny` left out
(`C86_array_needs_shape`), binary files for 2-D domains (`C86_binary_needs_3d`). -/
theorem C86_array_as_file_partial {imax : ℕ} {seps : K} {f g : File K} {r q : ReadOpts K}
    {o : Opts K} {names : List String} {bbox : List K} {odd : Except Fail (Option (Out K))}
    {a : Nd K} {nz nx ny : ℕ}
    (hread : readVelocityModel f.name f.samples f.traces r.width r.decode f.bytes r.nz r.nx r.ny
        r.byteOrder r.axesOrder r.axesOrderSort = .ok (a, nz, nx, ny))
    (hq : q.nz = some nz ∧ q.nx = some nx ∧ q.ny = some ny) :
    getSizing imax seps g q (some a) o names bbox odd =
      getSizing imax seps f r none o names bbox odd := by
  unfold getSizing
  simp only [load, hread, hq.1, hq.2.1, hq.2.2]

/-- **C86, negation (arrays).** For every 2-D or 3-D array passed as `velocity_data` without `nz`
or without `nx`, and every choice of the other options, the call raises. -/
theorem C86_array_needs_shape {imax : ℕ} {seps : K} {f : File K} {r : ReadOpts K} {o : Opts K}
    {names : List String} {bbox : List K} {odd : Except Fail (Option (Out K))} {a : Nd K}
    (ha : a.shape.length = 2 ∨ a.shape.length = 3) (h : r.nz = none ∨ r.nx = none) :
    ∃ e, getSizing imax seps f r (some a) o names bbox odd = .error e := by
  have hs : asArr a ≠ none := by
    unfold asArr
    match hsh : a.shape with
    | [] => simp [hsh] at ha
    | [_] => simp [hsh] at ha
    | [_, _] => simp
    | [_, _, _] => simp
    | _ :: _ :: _ :: _ :: _ => simp [hsh] at ha
  have hg : ∀ bb : Bbox K, gridShape bb r.nz r.nx r.ny = none := by
    intro bb
    rcases h with h | h <;> rw [h] <;> cases bb <;> cases r.nz <;> cases r.nx <;> cases r.ny <;> rfl
  unfold getSizing
  simp only [load]
  cases hA : asArr a with
  | none => exact absurd hA hs
  | some t =>
    obtain ⟨d0, d1, d2, vp⟩ := t
    simp only
    cases replaceWater d0 d1 d2 o.vpWater (convertUnits o.units vp) with
    | error e => exact ⟨_, rfl⟩
    | ok v =>
      simp only
      cases parseBbox bbox with
      | error e => exact ⟨_, rfl⟩
      | ok bb => simp only [hg]; exact ⟨_, rfl⟩

/-- **C86, negation (binary files).** A binary file read with three entries in `axes_order` (as by
default) never gives a sizing function for a 2-D domain, whatever the sizes and options. -/
theorem C86_binary_needs_3d {imax : ℕ} {seps : K} {f : File K} {r : ReadOpts K} {o : Opts K}
    {names : List String} {z0 z1 x0 x1 : K} {odd : Except Fail (Option (Out K))}
    (hname : f.name.endsWith ".segy" = false) {a0 a1 a2 : ℕ} (hao : r.axesOrder = [a0, a1, a2]) :
    ∃ e, getSizing imax seps f r none o names [z0, z1, x0, x1] odd = .error e := by
  unfold getSizing
  cases hl : load f r none with
  | error e => exact ⟨_, rfl⟩
  | ok t =>
    obtain ⟨a, nz, nx, ny⟩ := t
    have hlen : a.shape.length = 3 := by
      simp only [load, readVelocityModel, hname, hao] at hl
      rw [if_neg (by simp)] at hl
      cases hb : readBin r.width r.decode f.bytes r.nz r.nx r.ny r.byteOrder [a0, a1, a2]
          r.axesOrderSort with
      | error e => rw [hb] at hl; cases hl
      | ok t =>
        rw [hb] at hl
        obtain ⟨a', m0, m1, m2⟩ := t
        simp only [Except.ok.injEq, Prod.mk.injEq] at hl
        obtain ⟨rfl, -⟩ := hl
        cases hz : r.nz <;> cases hx : r.nx <;> cases hy : r.ny <;> rw [hz, hx, hy] at hb <;>
          simp only [readBin, bind, Except.bind] at hb <;> try cases hb
        split at hb
        · cases hb
        split at hb
        · cases hb
        split at hb
        · cases hb
        split at hb
        · cases hb
        rename_i T hT
        split at hb
        · cases hb
        rename_i U hU
        simp only [pure, Except.pure, Except.ok.injEq, Prod.mk.injEq] at hb
        obtain ⟨rfl, -⟩ := hb
        have e1 : T.shape.length = 3 := by
          unfold transpose at hT
          split_ifs at hT
          obtain rfl := Except.ok.inj hT
          simp
        unfold flipud at hU
        split at hU
        · cases hU
        · obtain rfl := Except.ok.inj hU
          exact e1
    simp only
    cases hA : asArr a with
    | none =>
      exfalso
      unfold asArr at hA
      match hsh : a.shape with
      | [_, _, _] => simp [hsh] at hA
      | [] => simp [hsh] at hlen
      | [_] => simp [hsh] at hlen
      | [_, _] => simp [hsh] at hlen
      | _ :: _ :: _ :: _ :: _ => simp [hsh] at hlen
    | some t =>
      obtain ⟨d0, d1, d2, vp⟩ := t
      simp only
      cases replaceWater d0 d1 d2 o.vpWater (convertUnits o.units vp) with
      | error e => exact ⟨_, rfl⟩
      | ok v =>
        simp only [parseBbox]
        cases hg : gridShape (.two z0 z1 x0 x1) nz nx ny with
        | none => exact ⟨_, rfl⟩
        | some shape =>
          have : shape.length = 2 := by
            cases nz <;> cases nx <;> simp [gridShape] at hg
            rw [← hg]; rfl
          simp only
          rw [if_neg (fun h => by rw [h] at hlen; omega), if_pos ⟨hlen, rfl⟩]
          exact ⟨_, rfl⟩

/-- Concrete cases for the hypotheses of the C86 theorems. -/
example : ∃ a, readVelocityModel exFile.name exFile.samples exFile.traces exRead.width exRead.decode
    exFile.bytes exRead.nz exRead.nx exRead.ny exRead.byteOrder exRead.axesOrder
    exRead.axesOrderSort = .ok (a, 2, 2, 0) := by
  have hd : "a.segy".endsWith ".segy" = true := by decide +kernel
  obtain ⟨a, h, -⟩ := C18_read_segy 2 ([[1, 2], [3, 4]] : List (List ℚ)) (by decide)
  refine ⟨a, ?_⟩
  simp only [readVelocityModel, exFile, hd, if_true]
  exact h

example : ([2, 3] : List ℕ).length = 2 ∧ exBin.name.endsWith ".segy" = false ∧
    exRead.axesOrder = [2, 0, 1] := ⟨rfl, by decide +kernel, rfl⟩

/-! ### C87 -/

/-- **C87 (partial).** If the call returns on rank 0, it returns on every rank, with the same bbox
and the same `hmin`. Missing: the sizes agree (`C87_other_ranks_one`). -/
theorem C87_same_box_partial {imax : ℕ} {seps : K} {f : File K} {r : ReadOpts K}
    {data : Option (Nd K)} {o : Opts K} {names : List String} {isTuple : Bool} {bbox : List K}
    {odd : Except Fail (Option (Out K))} {s : SizeFunction K}
    (h : getSizingFunction imax seps f r data o names isTuple bbox odd 0 = some (.ok (some s)))
    (rank : ℕ) :
    ∃ s', getSizingFunction imax seps f r data o names isTuple bbox odd rank =
      some (.ok (some s')) ∧ s'.bbox = s.bbox ∧ s'.hmin = s.hmin := by
  unfold getSizingFunction mkSizeFunction at h ⊢
  split at h
  · simp at h
  · simp at h
  · rename_i out ho
    cases hb : (isTuple || decide (0 < o.domainPad)) with
    | false => rw [hb] at h; simp at h
    | true =>
      rw [hb] at h
      simp only [if_true, Option.some.injEq, Except.ok.injEq] at h
      subst h
      exact ⟨_, rfl, rfl, rfl⟩

/-- **C15 (the returned object).** On every rank and for every file, array and set of options, the `bbox` of the
returned object is the given one, enlarged by `domain_pad` except at the top, and its `hmin` is the given one.
(`odd`: arrays with neither two nor three axes, or with a shape other than `nz`, `nx`, `ny`, are assumed to raise.) -/
theorem C15_returned_box {imax : ℕ} {seps : K} {f : File K} {r : ReadOpts K} {data : Option (Nd K)} {o : Opts K}
    {names : List String} {isTuple : Bool} {bbox : List K} {odd : Except Fail (Option (Out K))} {s : SizeFunction K}
    {rank : ℕ} (hodd : ∀ out, odd ≠ .ok out)
    (h : getSizingFunction imax seps f r data o names isTuple bbox odd rank = some (.ok (some s))) :
    0 ≤ o.domainPad ∧ s.hmin = o.hmin ∧
    ((∃ z0 z1 x0 x1, bbox = [z0, z1, x0, x1] ∧
        s.bbox = [z0 - o.domainPad, z1, x0 - o.domainPad, x1 + o.domainPad]) ∨
      ∃ z0 z1 x0 x1 y0 y1, bbox = [z0, z1, x0, x1, y0, y1] ∧
        s.bbox = [z0 - o.domainPad, z1, x0 - o.domainPad, x1 + o.domainPad, y0 - o.domainPad,
          y1 + o.domainPad]) := by
  have key : ∀ {out : Out K}, getSizing imax seps f r data o names bbox odd = .ok (some out) →
      ∃ d0 d1 d2 vp, sizing imax seps d0 d1 d2 o names bbox vp = .ok (some out) := by
    intro out ho
    unfold getSizing at ho
    repeat' split at ho
    all_goals first
      | exact absurd ho (hodd _)
      | (cases ho; done)
      | (cases ho; exact ⟨_, _, _, _, by assumption⟩)
  unfold getSizingFunction mkSizeFunction at h
  split at h
  · split_ifs at h
    simp at h
  · simp at h
  · rename_i out ho
    cases hb : (isTuple || decide (0 < o.domainPad)) with
    | false => rw [hb] at h; simp at h
    | true =>
      rw [hb] at h
      simp only [if_true, Option.some.injEq, Except.ok.injEq] at h
      subst h
      obtain ⟨d0, d1, d2, vp, hs⟩ := key ho
      obtain ⟨vp, bb, req, cell, cell1, cell2, -, h2, -, -, -, -, -, h8⟩ := sizing_some hs
      have hpb : (∃ z0 z1 x0 x1, bbox = [z0, z1, x0, x1] ∧ bb = .two z0 z1 x0 x1) ∨
          ∃ z0 z1 x0 x1 y0 y1, bbox = [z0, z1, x0, x1, y0, y1] ∧ bb = .three z0 z1 x0 x1 y0 y1 := by
        unfold parseBbox at h2
        split at h2
        · cases h2; exact .inl ⟨_, _, _, _, rfl, rfl⟩
        · cases h2; exact .inr ⟨_, _, _, _, _, _, rfl, rfl⟩
        · cases h2
      have hpad : 0 ≤ o.domainPad := by
        by_contra hneg
        rw [(C15_pad_edges (d0 := d0) (d1 := d1) (d2 := d2) (cell := cell2) (vp := vp) (bb := bb)
          (style := o.padStyle)).2.1 (not_le.1 hneg)] at h8
        cases h8
      refine ⟨hpad, rfl, ?_⟩
      rcases hpb with ⟨z0, z1, x0, x1, rfl, rfl⟩ | ⟨z0, z1, x0, x1, y0, y1, rfl, rfl⟩
      · refine .inl ⟨_, _, _, _, rfl, ?_⟩
        unfold buildPad at h8
        split_ifs at h8 with g1 g2
        · split at h8
          · cases h8
          · cases h8; rfl
        · cases h8
          have : o.domainPad = 0 := le_antisymm (not_lt.1 g2) hpad
          simp [Bbox.toList, this]
      · refine .inr ⟨_, _, _, _, _, _, rfl, ?_⟩
        unfold buildPad at h8
        split_ifs at h8 with g1 g2
        · split at h8
          · cases h8
          · cases h8; rfl
        · cases h8
          have : o.domainPad = 0 := le_antisymm (not_lt.1 g2) hpad
          simp [Bbox.toList, this]

/-- **C87, negation.** On every rank other than 0 the returned function is 1 everywhere, whatever
the velocities and options. -/
theorem C87_other_ranks_one {imax : ℕ} {seps : K} {f : File K} {r : ReadOpts K}
    {data : Option (Nd K)} {o : Opts K} {names : List String} {isTuple : Bool} {bbox : List K}
    {odd : Except Fail (Option (Out K))} {s : SizeFunction K} {rank : ℕ} (hr : rank ≠ 0)
    (h : getSizingFunction imax seps f r data o names isTuple bbox odd rank = some (.ok (some s)))
    (x : List K) : s.eval x = 1 := by
  unfold getSizingFunction mkSizeFunction at h
  split at h
  · simp [hr] at h
  · simp at h
  · cases hb : (isTuple || decide (0 < o.domainPad)) with
    | false => rw [hb] at h; simp at h
    | true =>
      rw [hb] at h
      simp only [if_true, if_neg hr, Option.some.injEq, Except.ok.injEq] at h
      subst h
      rfl

/-- **C87, negation (two ranks, concretely).** With the file `exFile` rank 0 returns a function
whose value at the lower left corner is 1000, rank 1 one with value 1. -/
theorem C87_call :
    ∃ s0 s1 : SizeFunction ℚ,
      getSizingFunction 10 0 exFile exRead none exOpts ["wl", "units"] true [0, 1, 0, 1]
        (.error .raised) 0 = some (.ok (some s0)) ∧
      getSizingFunction 10 0 exFile exRead none exOpts ["wl", "units"] true [0, 1, 0, 1]
        (.error .raised) 1 = some (.ok (some s1)) ∧
      s0.eval [0, 0] = 1000 ∧ s1.eval [0, 0] = 1 := by
  obtain ⟨s0, h0, -, -, he⟩ := C84_segy_file (imax := 10) (seps := 0) (f := exFile) (r := exRead)
    (o := exOpts) (names := ["wl", "units"]) (z0 := 0) (z1 := 1) (x0 := 0) (x1 := 1)
    (odd := .error .raised) (by decide +kernel) (by decide +kernel) (by decide) (by decide)
    (by norm_num) (by norm_num) (by decide +kernel) exOpts_only (by decide +kernel)
  obtain ⟨s1, h1, -, -⟩ := C87_same_box_partial h0 1
  refine ⟨s0, s1, h0, h1, ?_, C87_other_ranks_one one_ne_zero h1 _⟩
  have := he 0 (by decide) 1 (by decide)
  have e : wantedSize exOpts (exFile.traces[0][1]) = 1000 := by decide +kernel
  rw [e] at this
  rw [← this]
  congr 1
  norm_num [exFile]

/-- **C87, negation (errors).** If rank 0 raises in one of the checks, the other ranks do not
return: they wait for the broadcast of the bbox. -/
theorem C87_rank0_raises {imax : ℕ} {seps : K} {f : File K} {r : ReadOpts K}
    {data : Option (Nd K)} {o : Opts K} {names : List String} {isTuple : Bool} {bbox : List K}
    {odd : Except Fail (Option (Out K))} {e : Fail}
    (h : getSizing imax seps f r data o names bbox odd = .error e) {rank : ℕ} (hr : rank ≠ 0) :
    getSizingFunction imax seps f r data o names isTuple bbox odd 0 = some (.error e) ∧
    getSizingFunction imax seps f r data o names isTuple bbox odd rank = none := by
  unfold getSizingFunction
  simp [h, hr]

end SM.Velocity
