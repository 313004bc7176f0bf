import Verif.Model.Distribute
import Verif.Lemmas.Mpi
import Verif.Lemmas.Np
import Verif.Props.FixMesh
import Mathlib.Algebra.BigOperators.Group.List.Basic

/-!
# C64, C66: gathering the mesh, distributing the points
-/

namespace SM.Distribute

open Mpi Np

variable {V : Type}

/-! ## Specification -/

/-- Offset of the vertices of rank `r` in the gathered mesh: the number of vertices of the ranks before it. -/
def offset (p : ℕ → List V) (r : ℕ) : ℕ := ((List.range r).map fun q => (p q).length).sum

/-- All local vertices, in rank order. -/
def allPoints (P : ℕ) (p : ℕ → List V) : List V := (List.range P).flatMap p

/-- All local cells, in rank order, renumbered. -/
def allCells (P : ℕ) (p : ℕ → List V) (t : ℕ → List (List ℕ)) : List (List ℕ) :=
  (List.range P).flatMap fun r => (t r).map fun row => row.map (· + offset p r)

/-! ## Lemmas -/

theorem sum_unit (P i : ℕ) (hi : i < P) (n : ℕ → ℕ) : ((List.range P).map fun r => if i = r then n r else 0).sum = n i := by
  induction P with
  | zero => omega
  | succ P ih =>
    rw [List.range_succ, List.map_append, List.sum_append]
    by_cases h : i = P
    · subst h
      have : ((List.range i).map fun r => if i = r then n r else 0).sum = 0 := by
        apply List.sum_eq_zero
        intro x hx
        obtain ⟨r, hr, rfl⟩ := List.mem_map.1 hx
        rw [if_neg (by have := List.mem_range.1 hr; omega)]
      simp [this]
    · rw [ih (by omega)]
      simp [h]

theorem sumCounts_units (P : ℕ) (n : ℕ → ℕ) :
    sumCounts P ((List.range P).map fun r => (Payload.counts (unit P r (n r)) : Payload V)) = (List.range P).map n := by
  unfold sumCounts
  apply List.map_congr_left
  intro i hi
  have hi' := List.mem_range.1 hi
  rw [List.map_map, ← sum_unit P i hi' n]
  congr 1
  apply List.map_congr_left
  intro r _
  simp [unit, hi']

theorem item_map_range {P r : ℕ} (n : ℕ → ℕ) (hr : r < P) : item ((List.range P).map n) r = .ok (n r) := by
  rw [item_ok]
  simp [hr]

theorem cumsum_item {P r : ℕ} (p : ℕ → List V) (hr : r + 1 < P) :
    item (cumsum ((List.range P).map fun q => (p q).length)) r = .ok (offset p (r + 1)) := by
  rw [item_ok, cumsum]
  simp only [List.length_map, List.length_range, List.getElem?_map, List.getElem?_range (by omega : r < P), Option.map_some, offset]
  rw [← List.map_take, List.take_range, min_eq_left (by omega)]

theorem bind_lift_ok {M R S : Type} (x : R) (f : R → Proc M S) : (lift (.ok x) : Proc M R).bind f = f x := rfl

theorem gather_other {R : Type} {rank : ℕ} (h0 : rank ≠ 0) (points : List V) (faces : List (List ℕ)) (offP offT : List ℕ) (rs : List ℕ)
    (acc : List V × List (List ℕ)) (k : List V × List (List ℕ) → Proc (Payload V) R) (h : rank ∉ rs) :
    (gather rank points faces offP offT rs acc).bind k = k acc := by
  induction rs with
  | nil => rfl
  | cons r rs ih =>
    simp only [List.mem_cons, not_or] at h
    simp only [gather, if_neg h.1, if_neg h0, bind, pure, Proc.bind]
    exact ih h.2

theorem gather_self {R : Type} {rank : ℕ} (h0 : rank ≠ 0) (points : List V) (faces : List (List ℕ)) (offP offT : List ℕ) (rs : List ℕ)
    (acc : List V × List (List ℕ)) (k : List V × List (List ℕ) → Proc (Payload V) R) (h : rank ∈ rs) (hnd : rs.Nodup) :
    (gather rank points faces offP offT rs acc).bind k = .send 0 12 (.pts points) (.send 0 13 (.cells faces) (k acc)) := by
  induction rs with
  | nil => simp at h
  | cons r rs ih =>
    obtain ⟨hr, hnd⟩ := List.nodup_cons.1 hnd
    by_cases hr' : rank = r
    · subst hr'
      simp only [gather, if_true, if_neg h0, bind, pure, Proc.bind, send]
      rw [gather_other h0 _ _ _ _ _ _ _ hr]
    · simp only [gather, if_neg hr', if_neg h0, bind, pure, Proc.bind]
      exact ih (by simpa [hr'] using h) hnd

/-! ## C64 -/

section agg
variable (fix : List V → List (List ℕ) → Except String (List V × List (List ℕ))) (P : ℕ) (p p' : ℕ → List V) (t t' : ℕ → List (List ℕ))

/-- The vertices and cells gathered from the first `q` ranks. -/
def acc (q : ℕ) : List V × List (List ℕ) := (allPoints q p', allCells q p' t')

theorem acc_one : acc p' t' 1 = (p' 0, t' 0) := by
  simp [acc, allPoints, allCells, offset]

theorem acc_succ (q : ℕ) : acc p' t' (q + 1) = ((acc p' t' q).1 ++ p' q, (acc p' t' q).2 ++ (t' q).map fun row => row.map (· + offset p' q)) := by
  simp [acc, allPoints, allCells, List.range_succ, List.flatMap_append]

def offPs : List ℕ := (List.range P).map fun q => (p' q).length
def offTs : List ℕ := (List.range P).map fun q => (t' q).length

/-- The end of `aggregate` on rank 0. -/
def fin0 (g : List V × List (List ℕ)) : Proc (Payload V) (Option (List V × List (List ℕ))) := .ret (some g)

theorem gather_run (hP : 1 ≤ P) (q : ℕ) (hq : q + 1 ≤ P) : PReach P
    (fun r => if r = 0 then (gather 0 (p' 0) (t' 0) (offPs P p') (offTs P t') (List.range' 1 (P - 1)) (p' 0, t' 0)).bind fin0
      else .send 0 12 (.pts (p' r)) (.send 0 13 (.cells (t' r)) (.ret none)))
    (fun r => if r = 0 then (gather 0 (p' 0) (t' 0) (offPs P p') (offTs P t') (List.range' (q + 1) (P - 1 - q)) (acc p' t' (q + 1))).bind fin0
      else if r ≤ q then .ret none else .send 0 12 (.pts (p' r)) (.send 0 13 (.cells (t' r)) (.ret none))) := by
  induction q with
  | zero =>
    apply PReach.refl
    intro r _
    by_cases h : r = 0
    · subst h; simp [acc_one]
    · simp [h]
  | succ q ih =>
    refine (ih (by omega)).trans ?_
    have hr : List.range' (q + 1) (P - 1 - q) = (q + 1) :: List.range' (q + 2) (P - 1 - (q + 1)) := by
      rw [show P - 1 - q = (P - 1 - (q + 1)) + 1 by omega, List.range'_succ]
    have hoff : item (offPs P p') (q + 1) = .ok (p' (q + 1)).length := item_map_range _ (by omega)
    have hofft : item (offTs P t') (q + 1) = .ok (t' (q + 1)).length := item_map_range _ (by omega)
    have hcs : item (cumsum (offPs P p')) q = .ok (offset p' (q + 1)) := cumsum_item p' (by omega)
    -- program of rank 0
    let G : Payload V → Payload V → Proc (Payload V) (Option (List V × List (List ℕ))) := fun m m2 =>
      (((lift (item (offPs P p') (q + 1))).bind fun np => (lift (asPts np m)).bind fun tmp => (lift (item (offTs P t') (q + 1))).bind fun nt =>
        (lift (asCells nt m2)).bind fun tmp2 => (lift (item (cumsum (offPs P p')) q)).bind fun off =>
          Proc.ret ((acc p' t' (q + 1)).1 ++ tmp, (acc p' t' (q + 1)).2 ++ tmp2.map fun row => row.map (· + off))) :
        Proc (Payload V) (List V × List (List ℕ))).bind fun a =>
          (gather 0 (p' 0) (t' 0) (offPs P p') (offTs P t') (List.range' (q + 2) (P - 1 - (q + 1))) a).bind fin0
    have hG : G (.pts (p' (q + 1))) (.cells (t' (q + 1))) =
        (gather 0 (p' 0) (t' 0) (offPs P p') (offTs P t') (List.range' (q + 2) (P - 1 - (q + 1))) (acc p' t' (q + 2))).bind fin0 := by
      simp only [G, hoff, hofft, hcs, bind_lift_ok, asPts, asCells, if_true]
      simp only [Proc.bind, acc_succ p' t' (q + 1)]
    have hassoc : ∀ {A B C : Type} (x : Proc (Payload V) A) (f : A → Proc (Payload V) B) (g : B → Proc (Payload V) C),
        (x.bind f).bind g = x.bind fun a => (f a).bind g := by
      intro A B C x f g
      induction x with
      | ret => rfl
      | raised => rfl
      | send d t m k ih => simp [Proc.bind, ih]
      | wait d t i k ih => simp [Proc.bind, ih]
      | recv a t k ih => simp [Proc.bind, ih]
      | coll n m k ih => simp [Proc.bind, ih]
      | inColl j n k ih => simp [Proc.bind, ih]
    have h0 : (gather 0 (p' 0) (t' 0) (offPs P p') (offTs P t') (List.range' (q + 1) (P - 1 - q)) (acc p' t' (q + 1))).bind fin0 =
        .recv (q + 1) 12 fun m => (lift (item (offPs P p') (q + 1))).bind fun np => (lift (asPts np m)).bind fun tmp =>
          .recv (q + 1) 13 fun m2 => (((lift (item (offTs P t') (q + 1))).bind fun nt =>
            (lift (asCells nt m2)).bind fun tmp2 => (lift (item (cumsum (offPs P p')) q)).bind fun off =>
            Proc.ret ((acc p' t' (q + 1)).1 ++ tmp, (acc p' t' (q + 1)).2 ++ tmp2.map fun row => row.map (· + off))) :
            Proc (Payload V) (List V × List (List ℕ))).bind fun a =>
            (gather 0 (p' 0) (t' 0) (offPs P p') (offTs P t') (List.range' (q + 2) (P - 1 - (q + 1))) a).bind fin0 := by
      rw [hr, gather]
      simp only [bind, pure, Proc.bind, gatherOne, recv, hassoc, if_true, if_neg (Nat.succ_ne_zero q).symm, Nat.add_sub_cancel]
    -- first message
    refine PReach.trans (g := fun r => if r = 0 then .recv (q + 1) 13 (G (.pts (p' (q + 1)))) else if r ≤ q then .ret none
      else if r = q + 1 then .send 0 13 (.cells (t' r)) (.ret none) else .send 0 12 (.pts (p' r)) (.send 0 13 (.cells (t' r)) (.ret none))) ?_ ?_
    · refine PReach.transfer (a := q + 1) (b := 0) (t := 12) (m := .pts (p' (q + 1))) (ka := .send 0 13 (.cells (t' (q + 1))) (.ret none))
        (by omega) (by omega) (by omega) ?_ (by simp only [if_true]; exact h0) ?_ ?_ ?_
      · simp
      · simp
      · simp only [if_true, hoff, bind_lift_ok, asPts, G]
      · intro r _ h1 h2
        simp [h1, h2]
    · refine PReach.transfer (a := q + 1) (b := 0) (t := 13) (m := .cells (t' (q + 1))) (ka := .ret none) (by omega) (by omega) (by omega) ?_
        (by simp only [if_true]; rfl) ?_ ?_ ?_
      · simp
      · simp
      · simp only [if_true]; exact hG.symm
      · intro r _ h1 h2
        simp only [if_neg h2, if_neg h1]
        have : r ≤ q + 1 ↔ r ≤ q := by omega
        simp only [this]

theorem aggregate_run (hP : 1 ≤ P) (hfix : ∀ r < P, fix (p r) (t r) = .ok (p' r, t' r)) :
    PReach P (fun r => aggregate fix P r (p r) (t r))
      fun r => .ret (if r = 0 then some (allPoints P p', allCells P p' t') else none) := by
  -- the two reductions
  let need : ℕ → List ℕ := fun r => if r = 0 then List.range P else []
  let c1 : ℕ → Payload V := fun r => .counts (unit P r (p' r).length)
  let c2 : ℕ → Payload V := fun r => .counts (unit P r (t' r).length)
  let rest : ℕ → List (Payload V) → List (Payload V) → Proc (Payload V) (Option (List V × List (List ℕ))) := fun r lp lt =>
    (gather r (p' r) (t' r) (sumCounts P lp) (sumCounts P lt) (List.range' 1 (P - 1)) (p' r, t' r)).bind fun g =>
      if r = 0 then .ret (some g) else .ret none
  have hnf : ∀ r < P, aggregate fix P r (p r) (t r) = .coll (need r) (c1 r) fun lp => .coll (need r) (c2 r) fun lt => rest r lp lt := by
    intro r hr
    simp only [aggregate, hfix r hr, bind, pure, lift, Proc.bind, reduce, need, c1, c2, rest]
  have hneed : ∀ r < P, ∀ i ∈ need r, i < P := by
    intro r _ i hi
    simp only [need] at hi
    split at hi
    · exact List.mem_range.1 hi
    · simp at hi
  refine PReach.trans (g := fun r => .coll (need r) (c2 r) fun lt => rest r ((need r).map c1) lt) (PReach.collective hnf hneed fun r _ => rfl) ?_
  refine PReach.trans (g := fun r => rest r ((need r).map c1) ((need r).map c2)) (PReach.collective (fun r _ => rfl) hneed fun r _ => rfl) ?_
  have hrest : ∀ r < P, rest r ((need r).map c1) ((need r).map c2) =
      if r = 0 then (gather 0 (p' 0) (t' 0) (offPs P p') (offTs P t') (List.range' 1 (P - 1)) (p' 0, t' 0)).bind fin0
      else .send 0 12 (.pts (p' r)) (.send 0 13 (.cells (t' r)) (.ret none)) := by
    intro r hr
    by_cases h : r = 0
    · subst h
      simp only [rest, need, if_true, c1, c2]
      rw [sumCounts_units P fun r => (p' r).length, sumCounts_units P fun r => (t' r).length]
      rfl
    · simp only [if_neg h, rest]
      rw [gather_self h _ _ _ _ _ _ _ (by rw [List.mem_range'_1]; omega) List.nodup_range']
  refine PReach.trans (PReach.refl hrest) ((gather_run P p' t' hP (P - 1) (by omega)).trans (PReach.refl ?_))
  intro r hr
  by_cases h : r = 0
  · subst h
    simp only [if_true, Nat.sub_self, List.range'_zero, gather, pure, Proc.bind, fin0]
    rw [Nat.sub_add_cancel hP, acc]
  · simp only [if_neg h, if_pos (by omega : r ≤ P - 1)]

/-- **C64.** Whatever the schedule and the buffering, `aggregate` completes on all ranks; rank 0 gets the vertices of the ranks
(after `fix_mesh`) one after another and the cells renumbered; the other ranks get `(True, True)`. -/
theorem C64_aggregate (hP : 1 ≤ P) (hfix : ∀ r < P, fix (p r) (t r) = .ok (p' r, t' r)) :
    Completes P (fun r => aggregate fix P r (p r) (t r))
      fun r => if r = 0 then some (allPoints P p', allCells P p' t') else none :=
  completes_of_preach (aggregate_run fix P p p' t t' hP hfix)

end agg

theorem allPoints_get {P : ℕ} (p : ℕ → List V) {r i : ℕ} (hr : r < P) (hi : i < (p r).length) : (allPoints P p)[i + offset p r]? = (p r)[i]? := by
  induction P with
  | zero => omega
  | succ P ih =>
    have hlen : ∀ n, (allPoints n p).length = offset p n := by
      intro n; simp [allPoints, offset, List.length_flatMap]
    have e : allPoints (P + 1) p = allPoints P p ++ p P := by simp [allPoints, List.range_succ, List.flatMap_append]
    rw [e]
    by_cases h : r = P
    · subst h
      rw [List.getElem?_append_right (by rw [hlen]; omega), hlen]
      congr 1; omega
    · have hlt : i + offset p r < (allPoints P p).length := by
        have h1 := ih (by omega)
        rw [List.getElem?_eq_getElem hi] at h1
        exact (List.getElem?_eq_some_iff.1 h1).1
      rw [List.getElem?_append_left hlt]
      exact ih (by omega)

/-- **C64 (coordinates).** The cells of the gathered mesh, as lists of vertex coordinates, are the cells of the local meshes,
one rank after another; so all their vertex numbers are valid. -/
theorem C64_same_coordinates (P : ℕ) (p : ℕ → List V) (t : ℕ → List (List ℕ)) (ht : ∀ r < P, ∀ row ∈ t r, ∀ i ∈ row, i < (p r).length) :
    ((allCells P p t).map fun row => row.map fun i => (allPoints P p)[i]?) =
      (List.range P).flatMap fun r => (t r).map fun row => row.map fun i => (p r)[i]? := by
  unfold allCells
  rw [List.map_flatMap]
  apply List.flatMap_congr
  intro r hr
  rw [List.map_map]
  apply List.map_congr_left
  intro row hrow
  simp only [Function.comp_apply, List.map_map]
  apply List.map_congr_left
  intro i hi
  exact allPoints_get p (List.mem_range.1 hr) (ht r (List.mem_range.1 hr) row hrow i hi)

theorem C64_in_range (P : ℕ) (p : ℕ → List V) (t : ℕ → List (List ℕ)) (ht : ∀ r < P, ∀ row ∈ t r, ∀ i ∈ row, i < (p r).length) :
    (∀ row ∈ allCells P p t, ∀ i ∈ row, i < (allPoints P p).length) ∧
    (allPoints P p).length = ((List.range P).map fun r => (p r).length).sum ∧
    (allCells P p t).length = ((List.range P).map fun r => (t r).length).sum := by
  refine ⟨?_, by simp [allPoints, List.length_flatMap], by simp [allCells, List.length_flatMap]⟩
  intro row hrow i hi
  simp only [allCells, List.mem_flatMap, List.mem_map, List.mem_range] at hrow
  obtain ⟨r, hr, row', hrow', rfl⟩ := hrow
  obtain ⟨j, hj, rfl⟩ := List.mem_map.1 hi
  have hlt := ht r hr row' hrow' j hj
  have := allPoints_get p hr hlt
  rw [List.getElem?_eq_getElem hlt] at this
  exact (List.getElem?_eq_some_iff.1 this).1

/-- **C64, with `fix_mesh`.** If no two vertices of a rank have the same key, the gathered mesh has exactly the cells of the
local meshes that were handed to `aggregate` (up to the order of the vertices in a cell). -/
theorem C64_end_to_end {K κ ρ : Type} [Field K] [LinearOrder K] [IsStrictOrderedRing K] [LinearOrder κ] [LinearOrder ρ] (key : V → κ) {rk : List ℕ → ρ}
    (hrk : Function.Injective rk) (vol : List V → K) {P : ℕ} (hP : 1 ≤ P) {p : ℕ → List V} {t : ℕ → List (List ℕ)} (hp : ∀ r < P, p r ≠ [])
    (ht : ∀ r < P, FixMesh.InRange (p r) (t r)) (hk : ∀ r < P, ∀ x ∈ p r, ∀ y ∈ p r, key x = key y → x = y) :
    ∃ gp gt, Completes P (fun r => aggregate (fun p t => (FixMesh.fixMesh key rk vol p t true true).map fun x => (x.1, x.2.1)) P r (p r) (t r))
        (fun r => if r = 0 then some (gp, gt) else none) ∧
      (∀ row' ∈ gt, ∃ r < P, ∃ row ∈ t r, (row'.map fun i => gp[i]?).Perm (row.map fun i => (p r)[i]?)) ∧
      (∀ r < P, ∀ row ∈ t r, ∃ row' ∈ gt, (row'.map fun i => gp[i]?).Perm (row.map fun i => (p r)[i]?)) := by
  classical
  have hex : ∀ r : ℕ, ∃ p' t', r < P → ((FixMesh.fixMesh key rk vol (p r) (t r) true true).map fun x => (x.1, x.2.1)) = .ok (p', t') ∧
      (∀ r' ∈ t', ∀ i ∈ r', i < p'.length) ∧
      (∀ r' ∈ t', ∃ row ∈ t r, (r'.map fun i => p'[i]?).Perm (row.map fun i => (p r)[i]?)) ∧
      (∀ row ∈ t r, ∃ r' ∈ t', (r'.map fun i => p'[i]?).Perm (row.map fun i => (p r)[i]?)) := by
    intro r
    by_cases hr : r < P
    · obtain ⟨p', t', jx, h, h1, h2⟩ := FixMesh.C32_exact key hrk vol (hp r hr) (ht r hr) (hk r hr) true true
      refine ⟨p', t', fun _ => ⟨by rw [h]; rfl, ?_, h1, h2⟩⟩
      intro r' hr' i hi
      obtain ⟨row, hrow, hperm⟩ := h1 r' hr'
      have hm : p'[i]? ∈ row.map fun i => (p r)[i]? := hperm.mem_iff.1 (List.mem_map_of_mem hi)
      obtain ⟨j, hj, he⟩ := List.mem_map.1 hm
      have hjl := ht r hr row hrow j hj
      rw [List.getElem?_eq_getElem hjl] at he
      exact (List.getElem?_eq_some_iff.1 he.symm).1
    · exact ⟨[], [], fun h => absurd h hr⟩
  choose p' t' hpt using hex
  refine ⟨allPoints P p', allCells P p' t', C64_aggregate _ P p p' t t' hP fun r hr => (hpt r hr).1, ?_, ?_⟩
  · intro row' hrow'
    have hm : (row'.map fun i => (allPoints P p')[i]?) ∈ (allCells P p' t').map fun row => row.map fun i => (allPoints P p')[i]? :=
      List.mem_map_of_mem hrow'
    rw [C64_same_coordinates P p' t' fun r hr => (hpt r hr).2.1] at hm
    simp only [List.mem_flatMap, List.mem_map, List.mem_range] at hm
    obtain ⟨r, hr, row, hrow, he⟩ := hm
    obtain ⟨row0, hrow0, hperm⟩ := (hpt r hr).2.2.1 row hrow
    exact ⟨r, hr, row0, hrow0, by rw [← he]; exact hperm⟩
  · intro r hr row hrow
    obtain ⟨r', hr', hperm⟩ := (hpt r hr).2.2.2 row hrow
    have hm : (r'.map fun i => (p' r)[i]?) ∈ (List.range P).flatMap fun r => (t' r).map fun row => row.map fun i => (p' r)[i]? := by
      simp only [List.mem_flatMap, List.mem_map, List.mem_range]
      exact ⟨r, hr, r', hr', rfl⟩
    rw [← C64_same_coordinates P p' t' fun r hr => (hpt r hr).2.1] at hm
    obtain ⟨row', hrow', he⟩ := List.mem_map.1 hm
    exact ⟨row', hrow', by rw [he]; exact hperm⟩

/-- Three ranks: the third contributes a triangle whose numbers are shifted by the six vertices before it. -/
example : let p : ℕ → List (ℕ × ℕ) := fun r => [(r, 0), (r, 1), (r + 1, 0)]
    allCells 3 p (fun _ => [[0, 1, 2]]) = [[0, 1, 2], [3, 4, 5], [6, 7, 8]] ∧ (allPoints 3 p)[7]? = some (2, 1) := by
  decide

/-! ## C66 -/

section loc
variable {X R : Type} (P : ℕ) (blocks : List (List V)) (x : X) (bl : ℕ → List (List V)) (ex : ℕ → Option X)

theorem bind_assoc' {M A B C : Type} (x : Proc M A) (f : A → Proc M B) (g : B → Proc M C) : (x.bind f).bind g = x.bind fun a => (f a).bind g := by
  induction x with
  | ret => rfl
  | raised => rfl
  | send d t m k ih => simp [Proc.bind, ih]
  | wait d t i k ih => simp [Proc.bind, ih]
  | recv a t k ih => simp [Proc.bind, ih]
  | coll n m k ih => simp [Proc.bind, ih]
  | inColl j n k ih => simp [Proc.bind, ih]

/-- Points of rank `r` after `q` iterations. -/
def ptsAt (q r : ℕ) : Option (List V) := if q = 0 then none else if r = 0 then blocks[0]? else if r ≤ q then blocks[r]? else none

/-- Extents of rank `r` after `q` iterations. -/
def extAt (q r : ℕ) : Option X := if q = 0 then ex r else some x

/-- After the point-to-point part of one iteration: the broadcast and the rest. -/
def afterSend (k : Option (List V) × Option X → Proc (Parcel V X) R) (r : ℕ) (rest : List ℕ) (pts : Option (List V)) (e : Option X) : Proc (Parcel V X) R :=
  .coll [0] (.ext (if r ≠ 0 then none else e)) fun l => (single l).bind fun m =>
    (lift (parcelExt m)).bind fun e => (spread r (bl r) rest pts e).bind k

theorem spread_run (hlen : P ≤ blocks.length) (h0 : bl 0 = blocks) (hx : ex 0 = some x) (k : ℕ → Option (List V) × Option X → Proc (Parcel V X) R)
    (q : ℕ) (hq : q + 1 ≤ P) : PReach P
    (fun r => (spread r (bl r) (List.range' 1 (P - 1)) none (ex r)).bind (k r))
    (fun r => (spread r (bl r) (List.range' (q + 1) (P - 1 - q)) (ptsAt blocks q r) (extAt x ex q r)).bind (k r)) := by
  induction q with
  | zero => exact PReach.refl fun r _ => by simp [ptsAt, extAt]
  | succ q ih =>
    refine (ih (by omega)).trans ?_
    have hr : List.range' (q + 1) (P - 1 - q) = (q + 1) :: List.range' (q + 2) (P - 1 - (q + 1)) := by
      rw [show P - 1 - q = (P - 1 - (q + 1)) + 1 by omega, List.range'_succ]
    have hb0 : item blocks 0 = .ok (blocks[0]'(by omega)) := by rw [item_ok]; exact List.getElem?_eq_getElem _
    have hbq : item blocks (q + 1) = .ok (blocks[q + 1]'(by omega)) := by rw [item_ok]; exact List.getElem?_eq_getElem _
    have hext0 : extAt x ex q 0 = some x := by unfold extAt; split; exacts [hx, rfl]
    have e0 : (spread 0 (bl 0) (List.range' (q + 1) (P - 1 - q)) (ptsAt blocks q 0) (extAt x ex q 0)).bind (k 0) =
        .send (q + 1) 12 (.pts (blocks[q + 1]'(by omega)))
          (afterSend bl (k 0) 0 (List.range' (q + 2) (P - 1 - (q + 1))) (some (blocks[0]'(by omega))) (some x)) := by
      rw [hr, spread]
      simp only [if_true, bind, pure, Proc.bind, h0, hb0, hbq, bind_lift_ok, send, bcast, afterSend, hext0, bind_assoc']
    have eself : (spread (q + 1) (bl (q + 1)) (List.range' (q + 1) (P - 1 - q)) (ptsAt blocks q (q + 1)) (extAt x ex q (q + 1))).bind (k (q + 1)) =
        .recv 0 12 fun m => (lift (parcelPts m)).bind fun l =>
          afterSend bl (k (q + 1)) (q + 1) (List.range' (q + 2) (P - 1 - (q + 1))) (some l) (extAt x ex q (q + 1)) := by
      rw [hr, spread]
      simp only [Nat.succ_ne_zero, if_false, if_true, bind, pure, Proc.bind, recv, bcast, afterSend, bind_assoc']
    have eother : ∀ r, r ≠ 0 → r ≠ q + 1 → (spread r (bl r) (List.range' (q + 1) (P - 1 - q)) (ptsAt blocks q r) (extAt x ex q r)).bind (k r) =
        afterSend bl (k r) r (List.range' (q + 2) (P - 1 - (q + 1))) (ptsAt blocks q r) (extAt x ex q r) := by
      intro r h1 h2
      rw [hr, spread]
      simp only [if_neg h1, if_neg h2, bind, pure, Proc.bind, bcast, afterSend, bind_assoc']
    -- the message
    refine PReach.trans (g := fun r => afterSend bl (k r) r (List.range' (q + 2) (P - 1 - (q + 1))) (ptsAt blocks (q + 1) r) (extAt x ex q r)) ?_ ?_
    · refine PReach.transfer (a := 0) (b := q + 1) (by omega) (by omega) (by omega) e0 eself ?_ ?_ ?_
      · simp only [ptsAt, Nat.succ_ne_zero, if_false, if_true, hext0]
        rw [List.getElem?_eq_getElem (by omega)]
      · simp only [parcelPts, lift, Proc.bind, ptsAt, Nat.succ_ne_zero, if_false, le_refl, if_true]
        rw [List.getElem?_eq_getElem (by omega)]
      · intro r hr' h1 h2
        rw [eother r h1 h2]
        congr 1
        simp only [ptsAt, Nat.succ_ne_zero, if_false, h1]
        by_cases hq0 : q = 0
        · subst hq0
          rw [if_neg (by omega), if_pos rfl]
        · rw [if_neg hq0]
          have : r ≤ q + 1 ↔ r ≤ q := by omega
          simp only [this]
    · refine PReach.collective (need := fun _ => [0]) (m := fun r => .ext (if r ≠ 0 then none else extAt x ex q r)) (fun r _ => rfl)
        (fun r _ i hi => by have := List.mem_singleton.1 hi; omega) ?_
      intro r _
      simp only [List.map_cons, List.map_nil, ne_eq, not_true_eq_false, if_false, hext0, single, Proc.bind, parcelExt, bind_lift_ok]
      rfl

theorem localize_run (hP : 2 ≤ P) (hlen : P ≤ blocks.length) (h0 : bl 0 = blocks) (hx : ex 0 = some x) :
    PReach P (fun r => localizePoints P r (bl r) (ex r)) fun r => .ret (blocks.getD r [], some x) := by
  refine PReach.trans (spread_run P blocks x bl ex hlen h0 hx (fun _ s => match s.1 with
    | some l => pure (l, s.2)
    | none => raise "UnboundLocalError: points") (P - 1) (by omega)) (PReach.refl ?_)
  intro r hr
  simp only [Nat.sub_self, List.range'_zero, spread, pure, Proc.bind]
  have h1 : ptsAt blocks (P - 1) r = some (blocks[r]'(by omega)) := by
    unfold ptsAt
    rw [if_neg (by omega)]
    split
    · rename_i h; subst h; exact List.getElem?_eq_getElem _
    · rw [if_pos (by omega)]; exact List.getElem?_eq_getElem _
  have h2 : extAt x ex (P - 1) r = some x := by unfold extAt; rw [if_neg (by omega)]
  rw [h1, h2]
  simp [List.getD, List.getElem?_eq_getElem (show r < blocks.length by omega)]

/-- **C66.** With at least as many blocks as ranks, `localize_points` completes on all ranks under every schedule and buffering
behaviour: rank `r` gets block `r`, and all ranks get the extents of rank 0. -/
theorem C66_localize (hP : 2 ≤ P) (hlen : P ≤ blocks.length) (h0 : bl 0 = blocks) (hx : ex 0 = some x) :
    Completes P (fun r => localizePoints P r (bl r) (ex r)) fun r => (blocks.getD r [], some x) :=
  completes_of_preach (localize_run P blocks x bl ex hP hlen h0 hx)

theorem minRecv_spread {rank : ℕ} (h0 : rank ≠ 0) (b : List (List V)) (rest : List ℕ) (hm : rank ∈ rest) (pts : Option (List V)) (e : Option X)
    (k : Option (List V) × Option X → Proc (Parcel V X) R) : MinRecv 0 12 1 ((spread rank b rest pts e).bind k) := by
  induction rest generalizing pts e with
  | nil => simp at hm
  | cons loc rest ih =>
    by_cases hl : rank = loc
    · rw [spread]
      simp only [if_neg h0, if_pos hl, bind, Proc.bind, recv]
      exact .recv 0 _ fun _ => .zero _
    · have hm' : rank ∈ rest := by simpa [hl] using hm
      rw [spread]
      simp only [if_neg h0, if_neg hl, bind, pure, Proc.bind, bcast, bind_assoc']
      refine .coll _ _ _ _ fun l => ?_
      unfold single
      split
      · rename_i y
        cases y with
        | ext y => exact ih hm' _ _
        | pts y => exact .raised _ _
      · exact .raised _ _

/-- **C66, too few blocks.** If there are fewer blocks than ranks, the first rank without a block never returns. -/
theorem C66_too_few {r : ℕ} (hr : 1 ≤ r) (hrP : r < P) (hlen : blocks.length ≤ r) (h0 : bl 0 = blocks) {n : ℕ}
    {s : State (Parcel V X) (List V × Option X)} (h : Run P false n (init fun r => localizePoints P r (bl r) (ex r)) s) (y : List V × Option X) :
    (s r).proc ≠ .ret y := by
  have h1 : MinRecv 0 12 1 (localizePoints P r (bl r) (ex r)) := minRecv_spread (by omega) _ _ (by rw [List.mem_range'_1]; omega) _ _ _
  refine never_returns (a := 0) (b := r) (k := 0) (prog := fun r => localizePoints P r (bl r) (ex r)) h1 ?_ (by omega) h y
  have key : ∀ (rest : List ℕ) (pts : Option (List V)) (e : Option X) (k : Option (List V) × Option X → Proc (Parcel V X) (List V × Option X)),
      (∀ z, MaxSend r 12 0 (k z)) → MaxSend r 12 0 ((spread 0 (bl 0) rest pts e).bind k) := by
    intro rest
    induction rest with
    | nil => intro pts e k hk; exact hk _
    | cons loc rest ih =>
      intro pts e k hk
      rw [spread]
      simp only [if_true, bind, pure, bind_assoc', h0]
      cases hi : item blocks loc with
      | error e => exact .raised _ _
      | ok b =>
        have hlt : loc < blocks.length := (List.getElem?_eq_some_iff.1 (item_ok.1 hi)).1
        simp only [lift, Proc.bind, send]
        refine .other _ _ _ _ _ (Or.inl (by omega)) ?_
        cases hi0 : item blocks 0 with
        | error e => exact .raised _ _
        | ok b0 =>
          simp only [Proc.bind, bcast]
          refine .coll _ _ _ _ fun l => ?_
          unfold single
          split
          · rename_i y
            cases y with
            | ext y => rw [← h0]; exact ih _ _ _ hk
            | pts y => exact .raised _ _
          · exact .raised _ _
  refine key _ _ _ _ fun z => ?_
  obtain ⟨z1, z2⟩ := z
  cases z1 with
  | none => exact .raised _ _
  | some l => exact .ret _ _

end loc

end SM.Distribute
