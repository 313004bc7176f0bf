import Verif.Props.Parallel
import Verif.Props.FixMesh
import Verif.Props.Adjacency
import Mathlib.Tactic.NormNum
import Mathlib.Tactic.FinCases
import Mathlib.Tactic.IntervalCases

/-!
# A concrete parallel run

Two ranks, seven points, `max_iter = 2`: the hypotheses of `C76_user_points` and `C78_false_exception` are met. CGAL is replaced by a triangulation whose only
cell consists of the first four vertices.
-/

namespace SM.Parallel.Example

open Mpi Np MeshLoop Distribute

noncomputable section

/-- New points get the next handles; the only cell is made of the first four vertices. -/
def toyC : DtWrapper.Cgal (Fin 3 → ℝ) where
  insertRange dt l := ⟨List.range (dt.verts.length + l.length), fun h => (dt.verts.map dt.point ++ l.map Prod.fst).getD h 0, id, [[0, 1, 2, 3]]⟩
  removeOne dt _ := dt
  moveOne dt _ _ := dt

open Classical in
/-- Everything meets every box except the dummy one. -/
def toyG : WhereTo.Geo 3 ℝ := ⟨fun _ => false, fun _ b => decide (-999999998 < b.lo 0)⟩

def tools : Tools 3 (List ℝ) (List ℕ) :=
  ⟨fun q => [q 0, q 1, q 2], id, FixMesh.rowVol3, fun _ => 1, id, 0, fun _ _ b => b,
    fun _ _ => .ok ([![0, 0, 0], ![1, 0, 0], ![0, 1, 0], ![0, 0, 1]], [[0, 1, 2, 3]]), fun p t => .ok (p, t)⟩

/-- The serial part; `h` is the minimal edge length. The vertices do not move (`delta_t = 0`). -/
def env (h : ℝ) : Env 3 (List ℝ) (List ℕ) :=
  ⟨tools, fun p => (p, []), fun _ _ _ => .error "", fun _ => -1, [], fun _ => 1, h, 0, 0.1, 1 / 1000, 1 / 1000, [], 0, 1, 2, ⟨true, true, true⟩⟩

def world (h : ℝ) : World 3 (List ℝ) (List ℕ) := ⟨env h, toyC, toyG, fun _ => 0, fun _ _ => -1⟩

def own (r : ℕ) : List (Fin 3 → ℝ) :=
  if r = 0 then [![0, 0, 0], ![0, 1, 0], ![0, 0, 1], ![1, 0, 0]] else [![1, 0, 0], ![2, 0, 0], ![2, 1, 0], ![2, 0, 1]]

def points : List (Fin 3 → ℝ) := [![0, 0, 0], ![0, 1, 0], ![0, 0, 1], ![1, 0, 0], ![2, 0, 0], ![2, 1, 0], ![2, 0, 1]]

def extents : List (List ℝ) := [[0, 0, 0, 1, 1, 1], [1, 0, 0, 2, 1, 1]]

def box (r : ℕ) : WhereTo.Box 3 ℝ × WhereTo.Box 3 ℝ :=
  if r = 0 then (WhereTo.dummy, WhereTo.boxOf [1, 0, 0, 2, 1, 1]) else (WhereTo.boxOf [0, 0, 0, 1, 1, 1], WhereTo.dummy)

theorem blocks_ok : Blocker.blocker 0 points 2 1 = .ok ([own 0, own 1], extents) := by
  have hb : Blocker.blocksOf (0 : ℝ) ![0, 0, 0] [![0, 1, 0], ![0, 0, 1], ![1, 0, 0], ![2, 0, 0], ![2, 1, 0], ![2, 0, 1]] ((2, 2), (1, 1), (1, 1)) = [own 0, own 1] := by
    simp [Blocker.blocksOf, Blocker.lim, Blocker.corners, Blocker.lows, FixMesh.colMin, FixMesh.colMax, List.range_succ, Blocker.inBlock, Fin.forall_fin_succ, own, List.filter]
    norm_num
    rfl
  simp only [Blocker.blocker, points]
  norm_num [Blocker.cuts, hb]
  simp [own, Blocker.extentOf, Blocker.extent, FixMesh.colMin, FixMesh.colMax, extents, List.ofFn_succ]

theorem box_ok : ∀ r < 2, WhereTo.neighbours extents r 2 = .ok (box r) := by
  intro r hr
  interval_cases r
  · rfl
  · rfl

theorem triangulate_eq (h : ℝ) (p : List (Fin 3 → ℝ)) :
    triangulate (world h) p = ⟨List.range p.length, fun k => p.getD k 0, id, [[0, 1, 2, 3]]⟩ := by
  simp [triangulate, world, DtWrapper.insert, toyC, DtWrapper.empty, List.zipIdx_map_fst]

theorem map_range_getD {α : Type} (l : List α) (x : α) : (List.range l.length).map (fun k => l.getD k x) = l := by
  apply List.ext_getElem (by simp)
  intro i h1 h2
  simp only [List.getElem_map, List.getElem_range, List.getD, List.getElem?_eq_getElem h2]
  rfl

theorem renumber_range (n k : ℕ) : DtWrapper.renumber id ((List.range n).zipIdx) k = k := by
  have : ∀ (l : List (ℕ × ℕ)) (f : ℕ → ℕ), (∀ hi ∈ l, hi.1 = hi.2) → (∀ k, f k = k) → ∀ k, l.foldl (fun f hi => Function.update f hi.1 hi.2) f k = k := by
    intro l
    induction l with
    | nil => intro f _ hf; exact hf
    | cons a l ih =>
      intro f hl hf
      rw [List.foldl_cons]
      refine ih _ (fun hi h => hl hi (by simp [h])) fun k => ?_
      rw [Function.update_apply]
      split
      · rename_i h; rw [h]; exact (hl a (by simp)).symm
      · exact hf k
  refine this _ _ (fun hi h => ?_) (fun _ => rfl) k
  obtain ⟨a, b⟩ := hi
  rw [List.mem_zipIdx_iff_getElem?] at h
  rw [List.getElem?_eq_some_iff] at h
  obtain ⟨h1, h2⟩ := h
  simpa using h2.symm

theorem topo_eq (n : ℕ) (f : ℕ → Fin 3 → ℝ) :
    DtWrapper.getTopology (⟨List.range n, f, id, [[0, 1, 2, 3]]⟩ : DtWrapper.Tds (Fin 3 → ℝ)) =
      (((List.range n).map f, [[0, 1, 2, 3]]), ⟨List.range n, f, id, [[0, 1, 2, 3]]⟩) := by
  have : DtWrapper.renumber id ((List.range n).zipIdx) = id := funext fun k => renumber_range n k
  simp [DtWrapper.getTopology, DtWrapper.getFiniteVertices, DtWrapper.getFiniteCells, this]

theorem ownMesh_eq (h : ℝ) (s : State 3) : ownMesh (world h) s = (s.p, [[0, 1, 2, 3]]) := by
  rw [ownMesh, triangulate_eq, topo_eq, map_range_getD]

/-- Every rank exports all its vertices to the other one. -/
theorem exports_eq (h : ℝ) (s : ℕ → State 3) (hs : ∀ r < 2, (s r).p = own r) (r : ℕ) (hr : r < 2) :
    exportsOf (world h) box s (decide (r = 0)) r = (own r).map List.ofFn := by
  have hall : ∀ iv < 4, WhereTo.Exported toyG (box r).1 (box r).2 (own r) [[0, 1, 2, 3]] iv (decide (r = 0)) := by
    intro iv hiv
    refine ⟨0, [0, 1, 2, 3], rfl, by interval_cases iv <;> simp, ⟨?_, rfl, ?_⟩, fun e' _ h => absurd h (by omega)⟩
    · interval_cases r
      · right
        intro k
        fin_cases k <;> simp [WhereTo.coords, own, box, WhereTo.boxOf]
      · left
        intro k
        fin_cases k <;> simp [WhereTo.coords, own, box, WhereTo.boxOf]
    · interval_cases r <;> simp [box, toyG, WhereTo.boxOf, WhereTo.dummy] <;> norm_num
  have hlen : (own r).length = 4 := by interval_cases r <;> rfl
  rw [exportsOf, ownMesh_eq, hs r hr, WhereTo.exportedPoints]
  rw [List.filter_eq_self.2 fun iv hiv => by
    have hiv' : iv < 4 := by rw [← hlen]; exact List.mem_range.1 hiv
    exact @decide_eq_true _ (_) (hall iv hiv')]
  simp only [hlen]
  interval_cases r <;> rfl

theorem talks (h : ℝ) (s : ℕ → State 3) (hs : ∀ r < 2, (s r).p = own r) : Talks (world h) 2 box s := by
  constructor
  · intro r hr h0
    have := exports_eq h s hs r hr
    rw [show decide (r = 0) = false from decide_eq_false h0] at this
    rw [this]
    interval_cases r
    · omega
    · simp [own]
  · intro r hr
    obtain rfl : r = 0 := by omega
    have := exports_eq h s hs 0 (by omega)
    simp only [decide_true] at this
    rw [this]; simp [own]

theorem asPoints_ofFn (l : List (Fin 3 → ℝ)) : Ghost.asPoints 3 (l.map List.ofFn) = l := by
  unfold Ghost.asPoints
  induction l with
  | nil => rfl
  | cons a l ih =>
    have e1 : ((a :: l).map List.ofFn).flatten = a 0 :: a 1 :: a 2 :: (l.map List.ofFn).flatten := by simp [List.ofFn_succ]
    have e2 : (a 0 :: a 1 :: a 2 :: (l.map List.ofFn).flatten).length / 3 = (l.map List.ofFn).flatten.length / 3 + 1 := by
      simp only [List.length_cons]; omega
    rw [e1, e2, Ghost.groups]
    rw [show (a 0 :: a 1 :: a 2 :: (l.map List.ofFn).flatten).drop 3 = (l.map List.ofFn).flatten from rfl, ih]
    congr 1
    funext k
    fin_cases k <;> rfl

theorem ghosts_eq (h : ℝ) (s : ℕ → State 3) (hs : ∀ r < 2, (s r).p = own r) (r : ℕ) (hr : r < 2) :
    ghosts (world h) 2 extents box s r = .ok (own r ++ own (1 - r), [[0, 1, 2, 3]], List.range 8, 4) := by
  have hin : Exchange.incoming 2 (exportsOf (world h) box s false) (exportsOf (world h) box s true) r = (own (1 - r)).map List.ofFn := by
    interval_cases r
    · have := exports_eq h s hs 1 (by omega)
      simp only [one_ne_zero, decide_false] at this
      simp [Exchange.incoming, this]
    · have := exports_eq h s hs 0 (by omega)
      simp only [decide_true] at this
      simp [Exchange.incoming, this]
  have hlen : (own r).length = 4 := by interval_cases r <;> rfl
  have hlen' : (own (1 - r)).length = 4 := by interval_cases r <;> rfl
  obtain ⟨e, he⟩ : ∃ e, item extents r = .ok e := by interval_cases r <;> exact ⟨_, rfl⟩
  rw [ghosts, hin, triangulate_eq, topo_eq, Ghost.absorb, asPoints_ofFn]
  have hins : DtWrapper.insert (world h).C ⟨List.range (s r).p.length, fun k => (s r).p.getD k 0, id, [[0, 1, 2, 3]]⟩ (own (1 - r)) =
      ⟨List.range (own r ++ own (1 - r)).length, fun k => (own r ++ own (1 - r)).getD k 0, id, [[0, 1, 2, 3]]⟩ := by
    simp only [DtWrapper.insert, world, toyC, hs r hr, List.length_range, List.length_zipIdx, List.length_append, map_range_getD, List.zipIdx_map_fst]
  rw [hins, topo_eq, map_range_getD]
  have hrem : Topology.removeExternal ((world h).sd e) (own r ++ own (1 - r)) [[0, 1, 2, 3]] 3 = .ok (own r ++ own (1 - r), [[0, 1, 2, 3]], List.range 8) := by
    rw [Topology.removeExternal_spec _ (by simp) (by
      intro row hrow i hi
      simp only [List.mem_singleton] at hrow
      subst hrow
      simp only [List.mem_cons, List.not_mem_nil, or_false] at hi
      rw [List.length_append, hlen, hlen']
      omega) (fun _ => true) (by
      intro row hrow
      simp only [List.mem_singleton] at hrow
      subst hrow
      simp only [true_iff]
      refine ⟨0, by simp, (own r ++ own (1 - r))[0]'(by simp [hlen]), List.getElem?_eq_getElem _, ?_⟩
      simp [world])]
    simp [hlen, hlen']
  simp only [he, bind, Except.bind, hrem, pure, Except.pure, List.length_map, hlen']

theorem remove_eq (g : ℝ) (hg : g < 1) (p : List (Fin 3 → ℝ)) (hp : 4 ≤ p.length) :
    Project.removeOutside (fun _ : Fin 3 → ℝ => (-1 : ℝ)) g p [[0, 1, 2, 3]] = .ok [[0, 1, 2, 3]] := by
  match p, hp with
  | a :: b :: c :: e :: l, _ =>
    have : (-1 : ℝ) < -g := by linarith
    simp [Project.removeOutside, Project.keeps, Np.take, item, bind, Except.bind, pure, Except.pure, this, List.mapM_cons]

theorem topology_eq (h : ℝ) (fh : ℕ → (Fin 3 → ℝ) → ℝ) (s : ℕ → State 3) (hs : ∀ r < 2, (s r).p = own r) (r : ℕ) (hr : r < 2) (agg : List (Fin 3 → ℝ) × List (List ℕ)) :
    topology (envAt (world h) 2 fh extents box s r agg) (s r) = .ok (own r ++ own (1 - r), [[0, 1, 2, 3]], [], List.range 8, 4) := by
  have hlen : (own r).length = 4 := by interval_cases r <;> rfl
  simp only [envAt, ghosts_eq h s hs r hr, topology, envWith, bind, Except.bind, pure, Except.pure]
  rw [show (world h).E.pfix = [] from rfl, show (world h).E.fd = fun _ => -1 from rfl, show (world h).E.geps = 0.1 from rfl]
  simp only [List.mapM_nil, pure, Except.pure, gt_iff_lt, Nat.one_lt_ofNat, if_true]
  rw [remove_eq 0.1 (by norm_num) _ (by simp [hlen])]

theorem forces_ok (eps m : ℝ) (fh : (Fin 3 → ℝ) → ℝ) (p : List (Fin 3 → ℝ)) (hp : 4 ≤ p.length) : ∃ F, Forces.computeForces eps p [[0, 1, 2, 3]] fh m = .ok F := by
  have hb : Topology.getBars [[0, 1, 2, 3]] 4 = .ok [(0, 1), (0, 2), (0, 3), (1, 2), (1, 3), (2, 3)] := by decide +kernel
  match p, hp with
  | a :: b :: c :: e :: l, _ =>
    simp [Forces.computeForces, hb, bind, Except.bind, Forces.barOf, item, pure, Except.pure, List.mapM_cons]

theorem advance_zero (p F : List (Fin 3 → ℝ)) (hl : F.length = p.length) : advance 0 p F = p := by
  apply List.ext_getElem (by simp [advance, hl])
  intro i h1 h2
  simp [advance]

theorem project_id (deps h : ℝ) (idx : ℕ) (p : List (Fin 3 → ℝ)) : Project.projectBack (fun _ : Fin 3 → ℝ => (-1 : ℝ)) deps h idx p = p := by
  have : ∀ h idx, ¬ Project.selected h idx (-1 : ℝ) := by
    intro h idx
    unfold Project.selected
    split <;> norm_num
  simp [Project.projectBack, this]

theorem move_gen (T : Tools 3 (List ℝ) (List ℕ)) (D : List (Fin 3 → ℝ) → List (Fin 3 → ℝ) × List (List ℕ))
    (gh : ℕ → List (Fin 3 → ℝ) → List (List ℕ) → Except String (List (Fin 3 → ℝ) × List (List ℕ) × List ℕ × ℕ)) (fh : (Fin 3 → ℝ) → ℝ) (h geps deps eps : ℝ)
    (pfix : List (Fin 3 → ℝ)) (r : ℕ) (mi : ℝ) (o : TermOpts) (p q F : List (Fin 3 → ℝ)) (t : List (List ℕ)) (hF : Forces.computeForces eps p t fh (Forces.L0multOf 3) = .ok F)
    (hne : F ≠ []) (hl : F.length = p.length) (inv : List ℕ) (k : ℕ) (hdrop : Topology.npDelete p (lastSlice inv k) = q) :
    move ⟨T, D, gh, fun _ => -1, [], fh, h, 0, geps, deps, eps, pfix, r, 2, mi, o⟩ p t [] inv k =
      if r = 0 ∧ ¬ (∀ f ∈ F, (0 : ℝ) * Real.sqrt (∑ k, f k ^ 2) < 1000 * h) then
        .error "AssertionError: max movement indicates there's a convergence problem" else .ok q := by
  have hz : zeroAt [] F = F := by simp [zeroAt, List.zipIdx_map_fst]
  have he : F.isEmpty = false := by simpa using hne
  simp only [move, hF, bind, Except.bind, pure, Except.pure, hz, advance_zero _ _ hl, projectAll, project_id, gt_iff_lt, Nat.one_lt_ofNat, if_true, hdrop, he,
    Bool.false_eq_true, if_false, throw, throwThe, MonadExceptOf.throw]
  by_cases h0 : r = 0
  · by_cases hm : ∀ f ∈ F, (0 : ℝ) * Real.sqrt (∑ k, f k ^ 2) < 1000 * h
    · rw [if_pos h0, if_pos hm, if_neg fun h => h.2 hm]
    · rw [if_pos h0, if_neg hm, if_pos ⟨h0, hm⟩]
  · rw [if_neg h0, if_neg fun h => h0 h.1]

/-- The common part of `move` in this world. -/
theorem move_eq (h : ℝ) (fh : ℕ → (Fin 3 → ℝ) → ℝ) (s : ℕ → State 3) (r : ℕ) (hr : r < 2) :
    ∃ F : List (Fin 3 → ℝ), F ≠ [] ∧ move (envAt (world h) 2 fh extents box s r ([], [])) (own r ++ own (1 - r)) [[0, 1, 2, 3]] [] (List.range 8) 4 =
      if r = 0 ∧ ¬ (∀ f ∈ F, (0 : ℝ) * Real.sqrt (∑ k, f k ^ 2) < 1000 * h) then
        .error "AssertionError: max movement indicates there's a convergence problem" else .ok (own r) := by
  have hlen : (own r).length = 4 := by interval_cases r <;> rfl
  have hlen' : (own (1 - r)).length = 4 := by interval_cases r <;> rfl
  obtain ⟨F, hF⟩ := forces_ok (1 / 1000) (Forces.L0multOf 3) (fh r) (own r ++ own (1 - r)) (by simp [hlen])
  have hFl := computeForces_length hF
  have hne : F ≠ [] := by
    intro h; rw [h] at hFl; simp [hlen, hlen'] at hFl
  have hdrop : Topology.npDelete (own r ++ own (1 - r)) (lastSlice (List.range 8) 4) = own r := by
    have := Ghost.dropGhosts_range (own r ++ own (1 - r)) (n := 8) (k := 4) (by simp [hlen, hlen']) (by omega)
    rw [Ghost.dropGhosts] at this
    rw [this, List.take_left' hlen]
  exact ⟨F, hne, move_gen _ _ _ _ h _ _ _ _ r _ _ _ _ F _ hF hne hFl _ _ hdrop⟩

theorem finish_eq (fh : ℕ → (Fin 3 → ℝ) → ℝ) (s : ℕ → State 3) (agg : List (Fin 3 → ℝ) × List (List ℕ)) (p : List (Fin 3 → ℝ)) (t : List (List ℕ)) :
    finish (envAt (world 1) 2 fh extents box s 0 agg) p t = .ok ([![0, 0, 0], ![1, 0, 0], ![0, 1, 0], ![0, 0, 1]], [[0, 1, 2, 3]]) := by
  have hnew : ∀ de al (x : Fin 3 → ℝ), Project.newton (fun _ => (-1 : ℝ)) de al x = x := by
    intro de al x; funext i; simp [Project.newton, Project.dgrad]
  have hb : Topology.getBoundaryVertices (id : List ℕ → List ℕ) [[0, 1, 2, 3]] 3 = .ok [0, 1, 2, 3] := by decide +kernel
  have hstep : ∀ de al (a b c e : Fin 3 → ℝ), Project.improveStep (fun _ : Fin 3 → ℝ => (-1 : ℝ)) de al [0, 1, 2, 3] [a, b, c, e] = .ok [a, b, c, e] := by
    intro de al a b c e
    simp [Project.improveStep, Np.take, item, bind, Except.bind, pure, Except.pure, List.mapM_cons, hnew]
  have himp : ∀ de (a b c e : Fin 3 → ℝ), Project.improve (id : List ℕ → List ℕ) (fun _ : Fin 3 → ℝ => (-1 : ℝ)) de [a, b, c, e] [[0, 1, 2, 3]] = .ok [a, b, c, e] := by
    intro de a b c e
    simp only [Project.improve, hb, Project.improveLoop, hstep, bind, Except.bind]
  have ht : termination (envAt (world 1) 2 fh extents box s 0 agg).tools 0 2 false ⟨true, true, true⟩ p t =
      .ok ([![0, 0, 0], ![1, 0, 0], ![0, 1, 0], ![0, 0, 1]], [[0, 1, 2, 3]]) := by
    simp [termination, envAt, envWith, world, env, tools, bind, Except.bind, pure, Except.pure]
  unfold finish
  rw [show (envAt (world 1) 2 fh extents box s 0 agg).opts = ⟨true, true, true⟩ from rfl, show (envAt (world 1) 2 fh extents box s 0 agg).size = 2 from rfl,
    show (envAt (world 1) 2 fh extents box s 0 agg).rank = 0 from rfl, ht]
  simp only [bind, Except.bind, if_true]
  rw [show (envAt (world 1) 2 fh extents box s 0 agg).tools.rk = id from rfl, show (envAt (world 1) 2 fh extents box s 0 agg).fd = fun _ => -1 from rfl, himp]
  simp only
  rw [remove_eq _ (show (envAt (world 1) 2 fh extents box s 0 agg).h0 * 0.001 < 1 by show (1 : ℝ) * 0.001 < 1; norm_num) _ (by simp)]
  rfl

def st (k : ℕ) (r : ℕ) : State 3 := ⟨k, own r, k⟩

/-- One pass, then the last one. -/
theorem together (fh : ℕ → (Fin 3 → ℝ) → ℝ) {s0 : ℕ → State 3} (h0 : ∀ r < 2, s0 r = st 0 r) : Together (world 1) 2 fh extents box 2 s0
    fun r => if r = 0 then .mesh [![0, 0, 0], ![1, 0, 0], ![0, 1, 0], ![0, 0, 1]] [[0, 1, 2, 3]] else .flags := by
  have hs : ∀ k, ∀ r < 2, (st k r).p = own r := fun _ _ _ => rfl
  have hs0 : ∀ r < 2, (s0 r).p = own r := fun r hr => by rw [h0 r hr]; rfl
  refine .next (s' := st 1) (talks 1 _ hs0) (fun r hr => ?_) ?_
  · obtain ⟨F, hne, hm⟩ := move_eq 1 fh s0 r hr
    unfold step
    rw [topology_eq 1 fh _ hs0 r hr]
    simp only
    rw [if_neg (show ¬ (((s0 r).count : ℝ) = (envAt (world 1) 2 fh extents box s0 r ([], [])).maxIter - 1) by
      rw [h0 r hr]
      show ¬ ((0 : ℕ) : ℝ) = 2 - 1
      norm_num), hm, if_neg (by
        rintro ⟨-, h⟩
        apply h
        intro f _
        norm_num)]
    simp only [h0 r hr]
    rfl
  · have hfix : ∀ r < 2, ∃ q : List (Fin 3 → ℝ) × List (List ℕ), fixed tools (own r ++ own (1 - r)) [[0, 1, 2, 3]] = .ok q := by
      intro r hr
      have hlen : (own r).length = 4 := by interval_cases r <;> rfl
      obtain ⟨p0, ps, hp0⟩ : ∃ p0 ps, own r ++ own (1 - r) = p0 :: ps := by interval_cases r <;> exact ⟨_, _, rfl⟩
      obtain ⟨p, t, ix, hrun, -⟩ := FixMesh.fixMesh_run (fun q => tools.enc (FixMesh.snapPt (FixMesh.snapLen tools.ptol p0 ps) q)) (rk := tools.rk) (fun _ _ h => h)
        tools.vol (p := own r ++ own (1 - r)) (by rw [hp0]; simp) (t := [[0, 1, 2, 3]]) (by
          intro row hrow i hi
          simp only [List.mem_singleton] at hrow
          subst hrow
          simp only [List.mem_cons, List.not_mem_nil, or_false] at hi
          rw [List.length_append, hlen]
          omega) true true
      refine ⟨(p, t), ?_⟩
      rw [hp0] at hrun ⊢
      simp only [fixed, FixMesh.fixMeshK, hrun, bind, Except.bind, pure, Except.pure]
    choose! q hq using hfix
    refine .last (p := fun r => own r ++ own (1 - r)) (t := fun _ => [[0, 1, 2, 3]]) (p' := fun r => (q r).1) (t' := fun r => (q r).2)
      (rest := fun _ => ([], List.range 8, 4)) (tri := 2) (talks 1 _ (hs 1)) (fun r _ => ?_) (fun r hr => topology_eq 1 fh _ (hs 1) r hr _) (fun r hr => hq r hr) ?_
    · show ((1 : ℕ) : ℝ) = 2 - 1
      norm_num
    · unfold step
      rw [topology_eq 1 fh _ (hs 1) 0 (by omega)]
      simp only
      rw [if_pos (show (((st 1 0).count : ℝ) = (envAt (world 1) 2 fh extents box (st 1) 0 _).maxIter - 1) by
        show ((1 : ℕ) : ℝ) = 2 - 1
        norm_num), finish_eq]
      rfl

def input : Init.Input 3 := ⟨1, 0.1, [(0, 2), (0, 1), (0, 1)], fun _ => -1, fun _ _ => 1, [], 1, true, true, fun _ => 0⟩

/-- `C76_user_points` applies: the run on two ranks completes under every schedule, with the mesh on rank 0. -/
theorem run_completes : Completes 2 (fun r => rankRun (world 1) input 0 (some points) 2 r 2)
    fun r => if r = 0 then .mesh [![0, 0, 0], ![1, 0, 0], ![0, 1, 0], ![0, 0, 1]] [[0, 1, 2, 3]] else .flags :=
  C76_user_points (by omega) (by omega) (show (0 : ℝ) ≤ 2 by norm_num) blocks_ok (by simp) box_ok
    (together _ fun r hr => by interval_cases r <;> rfl)

/-- `C78_false_exception` applies: with `h0 = 0` the assertion of rank 0 fails, and rank 1 waits for ever. -/
example (fh : ℕ → (Fin 3 → ℝ) → ℝ) (n m : ℕ) (u : Mpi.State (Msg 3) (Result 3))
    (hu : Run 2 false m (init fun r => passes (world 0) 2 r (fh r) extents (n + 2) (st 0 r)) u) : ¬ Stopped (u 1).proc := by
  have hs : ∀ k, ∀ r < 2, (st k r).p = own r := fun _ _ _ => rfl
  obtain ⟨F, hne, hm⟩ := move_eq 0 fh (st 0) 0 (by omega)
  rw [if_pos ⟨rfl, fun h => by
    obtain ⟨f, hf⟩ := List.exists_mem_of_ne_nil F hne
    have := h f hf
    norm_num at this⟩] at hm
  have ht := talks 0 (st 1) (hs 1)
  refine C78_false_exception (by omega) (by omega) rfl box_ok (s' := st 1) (talks 0 _ (hs 0)) (show ((0 : ℕ) : ℝ) ≠ 2 - 1 by norm_num)
    (topology_eq 0 fh _ (hs 0) 0 (by omega) _) hm (fun r hr h0 => ?_) ⟨fun r hr h0 => ht.1 r hr h0, fun r _ hr => ht.2 r hr⟩ hu
  obtain ⟨F, -, hm⟩ := move_eq 0 fh (st 0) r hr
  rw [if_neg fun h => h0 h.1] at hm
  unfold step
  rw [topology_eq 0 fh _ (hs 0) r hr]
  simp only
  rw [if_neg (show ¬ (((st 0 r).count : ℝ) = (envAt (world 0) 2 fh extents box (st 0) r ([], [])).maxIter - 1) by
    show ¬ ((0 : ℕ) : ℝ) = 2 - 1
    norm_num), hm]
  rfl

end

end SM.Parallel.Example
