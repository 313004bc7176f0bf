import Verif.Model.Topology

/-!
# `get_winded_boundary_edges`, SeismicMesh/geometry/utils.py:329-361
-/

namespace SM.Winding

open Np Topology

/-- The `while True` loop, utils.py:348-359. `unv` lists the rows with `isVisited == 0` in
ascending order, so `choices[0]` (352-355) is the first of them containing `vNext`; `isVisited[choice]
= 1` (357) removes it. `tmp[0]` (359-360) raises if the edge has no other vertex. Returns the rows
appended to `ordering`. The recursion ends because `unv` shrinks: the loop terminates. -/
def walk (edges : List (List ℕ)) (unv : List ℕ) (vNext : ℕ) : Except String (List ℕ) :=
  match h : unv.find? fun i => decide (vNext ∈ edges.getD i []) with
  | none => .ok []
  | some c =>
    match (edges.getD c []).filter fun v => decide (v ≠ vNext) with
    | [] => .error "IndexError"
    | w :: _ => do
      let rest ← walk edges (unv.erase c) w
      return c :: rest
termination_by unv.length
decreasing_by
  have hc := List.mem_of_find?_eq_some h
  rw [List.length_erase_of_mem hc]
  have := List.length_pos_of_mem hc
  omega

/-- `get_winded_boundary_edges`, utils.py:339-361: start with row 0 and walk from its second
vertex. An empty boundary raises at `isVisited[0] = 1` (345). -/
def windedBoundaryEdges {ρ : Type} [LinearOrder ρ] (rk : List ℕ → ρ) (ents : List (List ℕ)) :
    Except String (List (List ℕ)) := do
  let b ← getBoundaryEdges rk ents 2
  match b with
  | [] => throw "IndexError"
  | e0 :: _ =>
    let vNext ← item e0 1
    let ordering ← walk b (List.range b.length).tail vNext
    Np.take b (0 :: ordering)

end SM.Winding
