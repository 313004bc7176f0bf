import Verif.Model.Generate
import Verif.Model.Ghost
import Verif.Model.Distribute
import Verif.Model.Blocker
import Verif.Model.Interp

/-!
# `generate_mesh` on several processes

SeismicMesh/generation/mesh_generator.py:435-529 for one rank of `P > 1`, as a message-passing program: `_initialize_points` (787-877) with
`localize_sizing_function` and `localize_points` (migration.py:16-70), then the meshing loop (460-527) with `_add_ghost_vertices` and, in the last pass,
`aggregate`. The serial parts are those of `Model/MeshLoop.lean` and `Model/InitPoints.lean`.
-/

namespace SM.Parallel

open Mpi Np MeshLoop Distribute

/-- All messages of a run. migration/migration.py:47, 61, 68, 90-104, 161, 172; mesh_generator.py:843, 875. -/
inductive Msg (d : ℕ)
  /-- `exchange` -/
  | rows (l : List (List ℝ))
  /-- `aggregate` -/
  | pay (m : Payload (Fin d → ℝ))
  /-- `localize_points` -/
  | parcel (m : Parcel (Fin d → ℝ) (List (List ℝ)))
  /-- `localize_sizing_function`: an interpolant -/
  | fn (f : (Fin d → ℝ) → ℝ)
  /-- `allreduce` -/
  | num (x : ℝ)
  /-- `_form_extents` -/
  | ext (e : List ℝ)

variable {d : ℕ}

/-- Received ghost points, migration/migration.py:165, 177. -/
def Msg.toRows : Msg d → Option (List (List ℝ))
  | .rows l => some l
  | _ => none
/-- Received meshes and counts, migration/migration.py:90-104. -/
def Msg.toPay : Msg d → Option (Payload (Fin d → ℝ))
  | .pay m => some m
  | _ => none
/-- Received blocks and extents, migration/migration.py:63, 68. -/
def Msg.toParcel : Msg d → Option (Parcel (Fin d → ℝ) (List (List ℝ)))
  | .parcel m => some m
  | _ => none
/-- Received interpolant, migration/migration.py:51. -/
def Msg.toFn : Msg d → Except String ((Fin d → ℝ) → ℝ)
  | .fn f => .ok f
  | _ => .error "TypeError"
/-- Reduced `r0m`, mesh_generator.py:843. -/
def Msg.toNum : Msg d → Except String ℝ
  | .num x => .ok x
  | _ => .error "TypeError"
/-- Received extent, mesh_generator.py:875. -/
def Msg.toExt : Msg d → Except String (List ℝ)
  | .ext e => .ok e
  | _ => .error "TypeError"

/-- The loop of `localize_sizing_function`, migration.py:23-52; `loc r` is the interpolant formed on rank 0 for rank `r`
(migration.py:25-41) and the state is `lfh` (if bound). -/
def spreadFn (loc : ℕ → (Fin d → ℝ) → ℝ) (rank : ℕ) : List ℕ → Option ((Fin d → ℝ) → ℝ) → Proc (Msg d) (Option ((Fin d → ℝ) → ℝ))
  | [], f => pure f
  | r :: rs, f =>
    if rank = 0 then
      if r = 0 then spreadFn loc rank rs (some (loc 0))
      else do
        send r 11 (.fn (loc r))
        spreadFn loc rank rs f
    else if rank = r then do
      let m ← recv 0 11
      let g ← lift m.toFn
      spreadFn loc rank rs (some g)
    else spreadFn loc rank rs f

/-- `localize_sizing_function(fh, h0, bbox, dim, axis, comm)`, migration.py:16-53. -/
def localizeSizing (loc : ℕ → (Fin d → ℝ) → ℝ) (size rank : ℕ) : Proc (Msg d) ((Fin d → ℝ) → ℝ) := do
  let f ← spreadFn loc rank (List.range size) none
  match f with
  | some f => pure f
  | none => raise "UnboundLocalError: lfh"

noncomputable section

/-- The interpolant for rank `r`, migration.py:25-41. -/
def localFn (fh : (Fin d → ℝ) → ℝ) (h0 : ℝ) (bbox : List (ℝ × ℝ)) (axis size r : ℕ) : (Fin d → ℝ) → ℝ :=
  fun x => Interp.localize (fun l => fh fun k => l.getD k 0) h0 bbox axis size r (List.ofFn x)

/-- `comm.bcast(extent, r)`, mesh_generator.py:875. -/
def bcastExt (root : ℕ) (e : List ℝ) : Proc (Msg d) (List ℝ) := do
  let m ← bcast root (.ext e)
  lift m.toExt

/-- `[comm.bcast(extent, r) for r in range(comm.size)]`, mesh_generator.py:875. -/
def gatherExt (e : List ℝ) : List ℕ → Proc (Msg d) (List (List ℝ))
  | [] => pure []
  | r :: rs => do
    let x ← bcastExt r e
    let xs ← gatherExt e rs
    pure (x :: xs)

/-- An extent as the list `[min x, min y, .., max x, max y, ..]`, mesh_generator.py:872. -/
def flatExt (e : (Fin d → ℝ) × (Fin d → ℝ)) : List ℝ := List.ofFn e.1 ++ List.ofFn e.2

/-- `comm.allreduce(r0m, op=MPI.MIN)`, mesh_generator.py:843. -/
def allreduceMin (P : ℕ) (x : ℝ) : Proc (Msg d) ℝ :=
  .coll (List.range P) (.num x) fun l => lift (do
    let xs ← l.mapM Msg.toNum
    Init.minOf xs)

/-- `_generate_initial_points`, mesh_generator.py:808-852, on rank `r` of `P > 1`. The user's size function is `I.fh 0`. -/
def generatePoints (I : Init.Input d) (P r : ℕ) : Proc (Msg d) (((Fin d → ℝ) → ℝ) × List (Fin d → ℝ) × List (List ℝ)) := do
  -- 810-812
  let fh ← (if I.lsf then localizeSizing (localFn (I.fh 0) I.h0 I.bbox I.axis P) P r else pure (I.fh 0))
  -- 814-823
  let ps ← lift (Init.candidates I P r)
  -- 824-839
  let m ← lift (Init.localR0m I.r0mIsH0 I.h0 (ps.map fh))
  -- 842-843
  let m ← allreduceMin P m
  -- 844-850
  let p := I.pfix ++ Init.reject I.rand m fh ps
  -- 851, 867-875
  let e ← lift (Init.extentOf I.h0 I.axis p)
  let es ← gatherExt (flatExt e) (List.range P)
  pure (fh, p, es)

/-- `_user_defined_points`, mesh_generator.py:787-805, on rank `r` of `P > 1`. (A size function that is not an interpolant is called with
a tuple of arrays in line 799; here it is evaluated at the grid nodes, as an interpolant is.) -/
def userDefined (I : Init.Input d) (eps : ℝ) (points : List (Fin d → ℝ)) (P r : ℕ) :
    Proc (Msg d) (((Fin d → ℝ) → ℝ) × List (Fin d → ℝ) × List (List ℝ)) := do
  let b ← (if r = 0 then (do
      let b ← lift (Blocker.blocker eps points P I.axis)
      pure (b.1, some b.2)) else pure ([], none))
  let fh ← localizeSizing (localFn (I.fh 0) I.h0 I.bbox I.axis P) P r
  let pe ← (localizePoints P r b.1 b.2).embed Msg.parcel Msg.toParcel
  match pe.2 with
  | some e => pure (fh, pe.1, e)
  | none => raise "TypeError: 'NoneType' object is not subscriptable"

/-- `_initialize_points`, mesh_generator.py:855-864. -/
def startOn (I : Init.Input d) (eps : ℝ) (points : Option (List (Fin d → ℝ))) (P r : ℕ) :
    Proc (Msg d) (((Fin d → ℝ) → ℝ) × List (Fin d → ℝ) × List (List ℝ)) :=
  match points with
  | none => generatePoints I P r
  | some ps => userDefined I eps ps P r

variable {κ ρ : Type} [LinearOrder κ] [LinearOrder ρ]

/-- External things: CGAL's triangulation and predicates, what lies behind the export buffer, and the signed distance of a block
(`geometry.remove_external_entities`). `E` holds what the loop reads on every rank; its fields `rank`, `size`, `dt`, `ghost`, `fh` and
`tools.aggregate` are replaced by those of the run. Used in mesh_generator.py:460-527. -/
structure World (d : ℕ) (κ ρ : Type) where
  E : Env d κ ρ
  C : DtWrapper.Cgal (Fin d → ℝ)
  G : WhereTo.Geo d ℝ
  junk : ℕ → ℝ
  sd : List ℝ → (Fin d → ℝ) → ℝ

/-- What a rank returns from `generate_mesh`. mesh_generator.py:529; migration/migration.py:109-112. -/
inductive Result (d : ℕ)
  /-- the loop is still going on -/
  | running (s : State d)
  /-- the mesh -/
  | mesh (p : List (Fin d → ℝ)) (t : List (List ℕ))
  /-- `(True, True)` -/
  | flags

/-- The triangulation of the rank's points, mesh_generator.py:465-466. -/
def triangulate (W : World d κ ρ) (p : List (Fin d → ℝ)) : DtWrapper.Tds (Fin d → ℝ) := DtWrapper.insert W.C (DtWrapper.empty 0) p

/-- The rank's environment, given the size function it uses, the outcome of `_add_ghost_vertices` and the outcome of `aggregate`. mesh_generator.py:417-493. -/
def envWith (W : World d κ ρ) (P r : ℕ) (fh : (Fin d → ℝ) → ℝ) (ghost : Except String (List (Fin d → ℝ) × List (List ℕ) × List ℕ × ℕ))
    (agg : List (Fin d → ℝ) × List (List ℕ)) : Env d κ ρ :=
  { W.E with
    rank := r, size := P, fh := fh
    dt := fun p => (DtWrapper.getTopology (triangulate W p)).1
    ghost := fun _ _ _ => ghost
    tools := { W.E.tools with aggregate := fun _ _ => .ok agg } }

open Classical in
/-- The part of a pass after `_add_ghost_vertices`, whose result is `g`, mesh_generator.py:481-523. -/
def afterGhosts (W : World d κ ρ) (P r : ℕ) (fh : (Fin d → ℝ) → ℝ) (s : State d) (g : List (Fin d → ℝ) × List (List ℕ) × List ℕ × ℕ) :
    Proc (Msg d) (Result d) := do
  -- 482
  let top ← lift (topology (envWith W P r fh (.ok g) ([], [])) s)
  if (s.count : ℝ) = W.E.maxIter - 1 then do
    -- 490, 655-677
    let a ← (aggregate (fixed W.E.tools) P r top.1 top.2.1).embed Msg.pay Msg.toPay
    match a with
    | none => pure .flags
    | some a => do
      let m ← lift (finish (envWith W P r fh (.ok g) a) top.1 top.2.1)
      pure (.mesh m.1 m.2)
  else do
    -- 497-521
    let p ← lift (move (envWith W P r fh (.ok g) ([], [])) top.1 top.2.1 top.2.2.1 top.2.2.2.1 top.2.2.2.2)
    pure (.running ⟨s.count + 1, p, s.tri + 1⟩)

/-- One pass of the loop on rank `r`, mesh_generator.py:460-527. -/
def pass (W : World d κ ρ) (P r : ℕ) (fh : (Fin d → ℝ) → ℝ) (extents : List (List ℝ)) (s : State d) : Proc (Msg d) (Result d) := do
  -- 465-469
  let q := DtWrapper.getTopology (triangulate W s.p)
  -- 472-475
  let _ ← lift (W.E.pfix.mapM (closestNode q.1.1))
  -- 478-479
  let g ← (Ghost.addGhost W.C W.G W.junk W.sd extents r P q.2 q.1.1 q.1.2).embed Msg.rows Msg.toRows
  afterGhosts W P r fh s g

/-- At most `n` passes. mesh_generator.py:460-527. -/
def passes (W : World d κ ρ) (P r : ℕ) (fh : (Fin d → ℝ) → ℝ) (extents : List (List ℝ)) : ℕ → State d → Proc (Msg d) (Result d)
  | 0, s => pure (.running s)
  | n + 1, s => do
    let o ← pass W P r fh extents s
    match o with
    | .running s => passes W P r fh extents n s
    | o => pure o

/-- `generate_mesh` on rank `r` after the arguments have been checked, mesh_generator.py:435-529, observed after at most `n` passes. -/
def rankRun (W : World d κ ρ) (I : Init.Input d) (eps : ℝ) (points : Option (List (Fin d → ℝ))) (P r n : ℕ) : Proc (Msg d) (Result d) := do
  let i ← startOn I eps points P r
  if W.E.maxIter < 0 then raise "ValueError: `max_iter` must be > 0"
  else if i.2.1.isEmpty then raise "AssertionError: No vertices to mesh with!"
  else passes W P r i.1 i.2.2 n ⟨0, i.2.1, 0⟩

end

end SM.Parallel
