import Verif.Model.WhereTo
import Verif.Props.Exchange
import Verif.Lemmas.Sizing
import Mathlib.Data.List.Basic
import Mathlib.Tactic.Ring
import Mathlib.Tactic.NormNum
import Mathlib.Tactic.FinCases
import Mathlib.Tactic.LinearCombination
import Mathlib.Tactic.FieldSimp

/-!
# C67, C68, C69: which vertices are exported, and the export buffer
-/

set_option linter.unusedSectionVars false

namespace SM.WhereTo

open Np

variable {K : Type} [Field K] [LinearOrder K] [IsStrictOrderedRing K] {d : ℕ}

/-! ## Specification -/

/-- The bounding box of the points `c` and the box `B` have a common point (`B.lo ≤ B.hi` presumed). -/
def BoxOverlap (c : List (Fin d → K)) (B : Box d K) : Prop :=
  ∀ k, (∃ u ∈ c, u k ≤ B.hi k) ∧ ∃ v ∈ c, B.lo k ≤ v k

/-- An element with vertices `c` sends its vertices below (`false`) or above (`true`). -/
def Sends (G : Geo d K) (below above : Box d K) (c : List (Fin d → K)) (b : Bool) : Prop :=
  (BoxOverlap c below ∨ BoxOverlap c above) ∧ G.flat c = false ∧
    if b then G.meets c below = false ∧ G.meets c above = true else G.meets c below = true

/-- The coordinates of the vertices of a face. -/
def coords [Inhabited (Fin d → K)] (points : List (Fin d → K)) (face : List ℕ) : List (Fin d → K) := face.map fun v => points.getD v default

/-- Vertex `iv` is exported in direction `b`: the first element around it that sends its vertices anywhere sends them there. -/
def Exported [Inhabited (Fin d → K)] (G : Geo d K) (below above : Box d K) (points : List (Fin d → K)) (faces : List (List ℕ)) (iv : ℕ) (b : Bool) : Prop :=
  ∃ (e : ℕ) (face : List ℕ), faces[e]? = some face ∧ iv ∈ face ∧ Sends G below above (coords points face) b ∧
    ∀ (e' : ℕ) (face' : List ℕ), e' < e → faces[e']? = some face' → iv ∈ face' → ∀ b', ¬ Sends G below above (coords points face') b'

/-! ## Which vertex goes where -/

theorem lowest_le_iff {c : List (Fin d → K)} (hc : c ≠ []) (k : Fin d) (x : K) : lowest c k ≤ x ↔ ∃ u ∈ c, u k ≤ x := by
  match c, hc with
  | a :: l, _ =>
    simp only [lowest]
    have : ∀ (l : List (Fin d → K)) (y : K), l.foldl (fun m u => min m (u k)) y ≤ x ↔ y ≤ x ∨ ∃ u ∈ l, u k ≤ x := by
      intro l
      induction l with
      | nil => simp
      | cons b l ih =>
        intro y
        rw [List.foldl_cons, ih, min_le_iff]
        simp [or_assoc]
    rw [this]
    simp

theorem le_highest_iff {c : List (Fin d → K)} (hc : c ≠ []) (k : Fin d) (x : K) : x ≤ highest c k ↔ ∃ u ∈ c, x ≤ u k := by
  match c, hc with
  | a :: l, _ =>
    simp only [highest]
    have : ∀ (l : List (Fin d → K)) (y : K), x ≤ l.foldl (fun m u => max m (u k)) y ↔ x ≤ y ∨ ∃ u ∈ l, x ≤ u k := by
      intro l
      induction l with
      | nil => simp
      | cons b l ih =>
        intro y
        rw [List.foldl_cons, ih, le_max_iff]
        simp [or_assoc]
    rw [this]
    simp

theorem overlaps_iff {c : List (Fin d → K)} (hc : c ≠ []) (B : Box d K) : overlaps c B = true ↔ BoxOverlap c B := by
  simp only [overlaps, decide_eq_true_eq, BoxOverlap]
  refine forall_congr' fun k => ?_
  rw [lowest_le_iff hc, le_highest_iff hc]

theorem judge_iff {G : Geo d K} {below above : Box d K} {c : List (Fin d → K)} (hc : c ≠ []) {b : Bool} :
    judge G below above c = some b ↔ Sends G below above c b := by
  unfold judge Sends
  have hi : (overlaps c below = true ∨ overlaps c above = true) ↔ (BoxOverlap c below ∨ BoxOverlap c above) := by
    rw [overlaps_iff hc, overlaps_iff hc]
  by_cases h : BoxOverlap c below ∨ BoxOverlap c above
  · rw [if_pos (hi.2 h)]
    cases hf : G.flat c <;> cases h1 : G.meets c below <;> cases h2 : G.meets c above <;> cases b <;> simp [h]
  · rw [if_neg (fun h' => h (hi.1 h'))]; simp [h]

theorem pushFace_spec (acc : List (List ℕ)) (fe : List ℕ × ℕ) : (pushFace acc fe).length = acc.length ∧
    ∀ v < acc.length, (pushFace acc fe).getD v [] = acc.getD v [] ++ (fe.1.filter (· = v)).map fun _ => fe.2 := by
  obtain ⟨f, e⟩ := fe
  unfold pushFace
  simp only []
  induction f generalizing acc with
  | nil => simp
  | cons u f ih =>
    rw [List.foldl_cons]
    obtain ⟨h1, h2⟩ := ih (acc.modify u (· ++ [e]))
    rw [List.length_modify] at h1 h2
    refine ⟨h1, fun v hv => ?_⟩
    rw [h2 v hv, List.filter_cons]
    by_cases huv : u = v
    · subst huv
      simp [List.getD, hv, List.getElem?_modify]
    · simp [List.getD, hv, List.getElem?_modify, huv]

theorem vtoe_spec (n : ℕ) (faces : List (List ℕ)) {v : ℕ} (hv : v < n) :
    (buildVtoe n faces).getD v [] = faces.zipIdx.flatMap fun fe => (fe.1.filter (· = v)).map fun _ => fe.2 := by
  unfold buildVtoe
  have : ∀ (l : List (List ℕ × ℕ)) (acc : List (List ℕ)), v < acc.length → (l.foldl pushFace acc).getD v [] =
      acc.getD v [] ++ l.flatMap fun fe => (fe.1.filter (· = v)).map fun _ => fe.2 := by
    intro l
    induction l with
    | nil => simp
    | cons fe l ih =>
      intro acc hacc
      obtain ⟨h1, h2⟩ := pushFace_spec acc fe
      rw [List.foldl_cons, ih _ (by omega), h2 v hacc, List.flatMap_cons, List.append_assoc]
  rw [this _ _ (by simpa using hv)]
  simp [List.getD, hv]

theorem mem_vtoe (n : ℕ) (faces : List (List ℕ)) {v e : ℕ} (hv : v < n) :
    e ∈ (buildVtoe n faces).getD v [] ↔ ∃ face, faces[e]? = some face ∧ v ∈ face := by
  rw [vtoe_spec n faces hv]
  simp only [List.mem_flatMap, List.mem_map, List.mem_filter, decide_eq_true_eq, Prod.exists, List.mk_mem_zipIdx_iff_getElem?]
  constructor
  · rintro ⟨f, i, hf, u, ⟨hu, rfl⟩, rfl⟩; exact ⟨f, hf, hu⟩
  · rintro ⟨f, hf, hv⟩; exact ⟨f, e, hf, v, ⟨hv, rfl⟩, rfl⟩

theorem vtoe_sorted (n : ℕ) (faces : List (List ℕ)) {v : ℕ} (hv : v < n) : ((buildVtoe n faces).getD v []).Pairwise (· ≤ ·) := by
  rw [vtoe_spec n faces hv]
  have : ∀ (l : List (List ℕ)) (i : ℕ), ((l.zipIdx i).flatMap fun fe => (fe.1.filter (· = v)).map fun _ => fe.2).Pairwise (· ≤ ·) := by
    intro l
    induction l with
    | nil => simp
    | cons f l ih =>
      intro i
      rw [List.zipIdx_cons, List.flatMap_cons, List.pairwise_append]
      refine ⟨?_, ih _, ?_⟩
      · rw [List.pairwise_map]; exact List.pairwise_of_forall fun _ _ => le_refl _
      · intro a ha b hb
        simp only [List.mem_map] at ha
        obtain ⟨_, _, rfl⟩ := ha
        simp only [List.mem_flatMap, List.mem_map] at hb
        obtain ⟨fe, hfe, _, _, rfl⟩ := hb
        have := List.le_snd_of_mem_zipIdx hfe
        omega
  exact this faces 0

theorem findSome_first {l : List ℕ} (hl : l.Pairwise (· ≤ ·)) {f : ℕ → Option Bool} {b : Bool} :
    l.findSome? f = some b ↔ ∃ e ∈ l, f e = some b ∧ ∀ e' ∈ l, e' < e → f e' = none := by
  induction l with
  | nil => simp
  | cons a l ih =>
    rw [List.pairwise_cons] at hl
    cases h : f a with
    | some b' =>
      rw [List.findSome?_cons, h]
      simp only [Option.some.injEq]
      constructor
      · rintro rfl
        refine ⟨a, by simp, h, fun e' he' hlt => ?_⟩
        rcases List.mem_cons.1 he' with rfl | he'
        · omega
        · have := hl.1 _ he'; omega
      · rintro ⟨e, he, hb, hmin⟩
        rcases List.mem_cons.1 he with rfl | he
        · rw [h] at hb; exact Option.some.inj hb
        · have hle := hl.1 _ he
          rcases hle.lt_or_eq with hlt | rfl
          · rw [hmin a (by simp) hlt] at h; cases h
          · rw [h] at hb; exact Option.some.inj hb
    | none =>
      rw [List.findSome?_cons, h]
      simp only []
      rw [ih hl.2]
      constructor
      · rintro ⟨e, he, hb, hmin⟩
        refine ⟨e, by simp [he], hb, fun e' he' hlt => ?_⟩
        rcases List.mem_cons.1 he' with rfl | he'
        · exact h
        · exact hmin e' he' hlt
      · rintro ⟨e, he, hb, hmin⟩
        rcases List.mem_cons.1 he with rfl | he
        · rw [h] at hb; cases hb
        · exact ⟨e, he, hb, fun e' he' hlt => hmin e' (by simp [he']) hlt⟩

variable [Inhabited (Fin d → K)]

/-- The direction computed for a vertex is the one of the specification. -/
theorem dest_iff (G : Geo d K) (below above : Box d K) (points : List (Fin d → K)) (faces : List (List ℕ)) {iv : ℕ} (hiv : iv < points.length) (b : Bool) :
    dest G below above points faces iv = some b ↔ Exported G below above points faces iv b := by
  unfold dest
  rw [findSome_first (vtoe_sorted _ _ hiv)]
  have hne : ∀ {face : List ℕ}, iv ∈ face → corners points face ≠ [] := by
    intro face h h'
    rw [corners, List.map_eq_nil_iff] at h'
    rw [h'] at h; cases h
  constructor
  · rintro ⟨e, he, hb, hmin⟩
    obtain ⟨face, hf, hm⟩ := (mem_vtoe _ _ hiv).1 he
    have hfe : faces.getD e [] = face := by simp [List.getD, hf]
    rw [hfe] at hb
    refine ⟨e, face, hf, hm, (judge_iff (hne hm)).1 hb, fun e' face' hlt hf' hm' b' hs => ?_⟩
    have hfe' : faces.getD e' [] = face' := by simp [List.getD, hf']
    have := hmin e' ((mem_vtoe _ _ hiv).2 ⟨face', hf', hm'⟩) hlt
    rw [hfe', (judge_iff (hne hm')).2 hs] at this
    cases this
  · rintro ⟨e, face, hf, hm, hs, hmin⟩
    have hfe : faces.getD e [] = face := by simp [List.getD, hf]
    refine ⟨e, (mem_vtoe _ _ hiv).2 ⟨face, hf, hm⟩, by rw [hfe]; exact (judge_iff (hne hm)).2 hs, fun e' he' hlt => ?_⟩
    obtain ⟨face', hf', hm'⟩ := (mem_vtoe _ _ hiv).1 he'
    have hfe' : faces.getD e' [] = face' := by simp [List.getD, hf']
    rw [hfe']
    cases h : judge G below above (corners points face') with
    | none => rfl
    | some b' => exact absurd ((judge_iff (hne hm')).1 h) (hmin e' face' hlt hf' hm' b')

/-! ## Memory -/

theorem val_setRow (m : Mem K) (i : ℕ) (row : List K) (j : ℕ) :
    (m.setRow i row).val j = if i ≤ j ∧ j < i + row.length then row.getD (j - i) 0 else m.val j := by
  induction row generalizing m i with
  | nil =>
    rw [Mem.setRow, if_neg]
    simp
  | cons x xs ih =>
    rw [Mem.setRow, ih, List.length_cons]
    by_cases h : i + 1 ≤ j ∧ j < i + 1 + xs.length
    · rw [if_pos h, if_pos (by omega), show j - i = (j - (i + 1)) + 1 by omega, List.getD_cons_succ]
    · rw [if_neg h]
      simp only [Mem.set]
      by_cases hj : j = i
      · subst hj
        simp
      · rw [if_neg hj, if_neg (by omega)]

theorem writes_setRow (m : Mem K) (i : ℕ) (row : List K) (j : ℕ) :
    j ∈ (m.setRow i row).writes ↔ (i ≤ j ∧ j < i + row.length) ∨ j ∈ m.writes := by
  induction row generalizing m i with
  | nil => simp [Mem.setRow]
  | cons x xs ih =>
    rw [Mem.setRow, ih, List.length_cons]
    simp only [Mem.set, List.mem_cons]
    by_cases hm : j ∈ m.writes
    · simp [hm]
    · simp only [hm, or_false]; omega

/-- Row `i` of the memory. -/
def rowAt (d : ℕ) (m : Mem K) (i : ℕ) : List K := (List.range (d + 1)).map fun j => m.val (i * (d + 1) + j)

theorem rowOf_length (points : List (Fin d → K)) (iv : ℕ) : (rowOf points iv).length = d + 1 := by simp [rowOf]

theorem rowAt_setRow (m : Mem K) (i0 i : ℕ) {row : List K} (hrow : row.length = d + 1) :
    rowAt d (m.setRow (i0 * (d + 1)) row) i = if i = i0 then row else rowAt d m i := by
  by_cases h : i = i0
  · subst h
    rw [if_pos rfl]
    apply List.ext_getElem
    · simp [rowAt, hrow]
    · intro j hj hj'
      simp only [rowAt, List.getElem_map, List.getElem_range, val_setRow, hrow]
      rw [if_pos (by omega)]
      simp [List.getD, hj']
  · rw [if_neg h]
    unfold rowAt
    apply List.map_congr_left
    intro j hj
    rw [List.mem_range] at hj
    rw [val_setRow, if_neg]
    rw [hrow]
    rintro ⟨h1, h2⟩
    apply h
    have e1 : (i * (d + 1) + j) / (d + 1) = i := by
      rw [Nat.add_comm, Nat.add_mul_div_right _ _ (by omega), Nat.div_eq_of_lt hj, Nat.zero_add]
    have e2 : (i * (d + 1) + j) / (d + 1) = i0 := by
      apply Nat.div_eq_of_lt_le
      · omega
      · rw [Nat.add_mul]; omega
    omega

/-! ## The packing loop -/

/-- The vertices among `l` that go in direction `b`. -/
abbrev going (dst : ℕ → Option Bool) (b : Bool) (l : List ℕ) : List ℕ := l.filter fun iv => dst iv = some b

theorem pack_spec (points : List (Fin d → K)) (dst : ℕ → Option Bool) (kb : ℕ) (m0 : Mem K) (l : List ℕ)
    (hkb : (going dst false l).length ≤ kb) :
    let s := l.foldl (packOne points dst kb) ⟨m0, 0, 0⟩
    s.below = (going dst false l).length ∧ s.above = (going dst true l).length ∧
    (∀ i, ∀ h : i < (going dst false l).length, rowAt d s.mem (i + 1) = rowOf points (going dst false l)[i]) ∧
    (∀ i, ∀ h : i < (going dst true l).length, rowAt d s.mem (kb + i + 1) = rowOf points (going dst true l)[i]) ∧
    (∀ j, j ∈ s.mem.writes ↔ j ∈ m0.writes ∨ (d + 1 ≤ j ∧ j < ((going dst false l).length + 1) * (d + 1)) ∨
      ((kb + 1) * (d + 1) ≤ j ∧ j < (kb + (going dst true l).length + 1) * (d + 1))) := by
  induction l using List.reverseRecOn with
  | nil => simp
  | append_singleton l iv ih =>
    have hle : (going dst false l).length ≤ kb := by
      refine le_trans ?_ hkb
      rw [going, going, List.filter_append, List.length_append]; omega
    obtain ⟨h1, h2, h3, h4, h5⟩ := ih hle
    simp only [List.foldl_append, List.foldl_cons, List.foldl_nil]
    set s := l.foldl (packOne points dst kb) ⟨m0, 0, 0⟩ with hs
    unfold packOne
    cases hd : dst iv with
    | none =>
      have e : ∀ b, going dst b (l ++ [iv]) = going dst b l := by intro b; simp [going, hd]
      simp only [e]
      exact ⟨h1, h2, h3, h4, h5⟩
    | some b =>
      cases b with
      | false =>
        have e1 : going dst false (l ++ [iv]) = going dst false l ++ [iv] := by simp [going, hd]
        have e2 : going dst true (l ++ [iv]) = going dst true l := by simp [going, hd]
        have hlt : (going dst false l).length < kb := by rw [e1, List.length_append, List.length_singleton] at hkb; omega
        have hpos : s.below * (d + 1) + (d + 1) = (s.below + 1) * (d + 1) := by ring
        simp only [e1, e2, hpos, List.length_append, List.length_singleton]
        refine ⟨by omega, h2, ?_, ?_, ?_⟩
        · intro i hi
          rw [rowAt_setRow _ _ _ (rowOf_length _ _)]
          by_cases hi' : i + 1 = s.below + 1
          · rw [if_pos hi']
            rw [List.getElem_append_right (by omega)]
            simp
          · rw [if_neg hi', h3 i (by omega), List.getElem_append_left]
        · intro i hi
          rw [rowAt_setRow _ _ _ (rowOf_length _ _), if_neg (by omega)]
          exact h4 i hi
        · intro j
          rw [writes_setRow, h5, rowOf_length, h1]
          have g1 : ((going dst false l).length + 1 + 1) * (d + 1) = ((going dst false l).length + 1) * (d + 1) + (d + 1) := by ring
          have g2 : d + 1 ≤ ((going dst false l).length + 1) * (d + 1) := Nat.le_mul_of_pos_left _ (by omega)
          rw [g1]
          generalize ((going dst false l).length + 1) * (d + 1) = x at *
          generalize (kb + 1) * (d + 1) = y
          generalize (kb + (going dst true l).length + 1) * (d + 1) = z
          by_cases hm : j ∈ m0.writes
          · simp [hm]
          · simp only [hm, false_or]; omega
      | true =>
        have e1 : going dst true (l ++ [iv]) = going dst true l ++ [iv] := by simp [going, hd]
        have e2 : going dst false (l ++ [iv]) = going dst false l := by simp [going, hd]
        have hpos : kb * (d + 1) + s.above * (d + 1) + (d + 1) = (kb + s.above + 1) * (d + 1) := by ring
        simp only [e1, e2, hpos, List.length_append, List.length_singleton]
        refine ⟨h1, by omega, ?_, ?_, ?_⟩
        · intro i hi
          rw [rowAt_setRow _ _ _ (rowOf_length _ _), if_neg (by omega)]
          exact h3 i hi
        · intro i hi
          rw [rowAt_setRow _ _ _ (rowOf_length _ _)]
          by_cases hi' : i = s.above
          · rw [if_pos (by omega)]
            rw [List.getElem_append_right (by omega)]
            simp
          · rw [if_neg (by omega), h4 i (by omega), List.getElem_append_left]
        · intro j
          rw [writes_setRow, h5, rowOf_length, h2]
          have g1 : (kb + ((going dst true l).length + 1) + 1) * (d + 1) = (kb + (going dst true l).length + 1) * (d + 1) + (d + 1) := by ring
          have g2 : (kb + 1) * (d + 1) ≤ (kb + (going dst true l).length + 1) * (d + 1) := Nat.mul_le_mul_right _ (by omega)
          rw [g1]
          generalize (kb + (going dst true l).length + 1) * (d + 1) = x at *
          generalize (kb + 1) * (d + 1) = y at *
          generalize ((going dst false l).length + 1) * (d + 1) = z
          by_cases hm : j ∈ m0.writes
          · simp [hm]
          · simp only [hm, false_or]; omega

theorem going_length (dst : ℕ → Option Bool) (n : ℕ) : (going dst false (List.range n)).length + (going dst true (List.range n)).length ≤ n := by
  have : ∀ l : List ℕ, (going dst false l).length + (going dst true l).length ≤ l.length := by
    intro l
    induction l with
    | nil => simp
    | cons a l ih =>
      simp only [going, List.filter_cons, List.length_cons] at ih ⊢
      cases h : dst a with
      | none => simp; omega
      | some b => cases b <;> simp <;> omega
  simpa using this (List.range n)

section fill
variable (junk : ℕ → K) (points : List (Fin d → K)) (dst : ℕ → Option Bool)

/-- The whole buffer: header, rows below, rows above. -/
theorem fill_spec (hd : 1 ≤ d) :
    let B := going dst false (List.range points.length)
    let A := going dst true (List.range points.length)
    rowAt d (fill junk points dst) 0 = (B.length : K) :: (A.length : K) :: List.replicate (d - 1) 0 ∧
    (∀ i, ∀ h : i < B.length, rowAt d (fill junk points dst) (i + 1) = rowOf points B[i]) ∧
    (∀ i, ∀ h : i < A.length, rowAt d (fill junk points dst) (B.length + i + 1) = rowOf points A[i]) ∧
    ∀ j, j ∈ (fill junk points dst).writes ↔ j < (B.length + A.length + 1) * (d + 1) := by
  intro B A
  obtain ⟨-, -, h3, h4, h5⟩ := pack_spec points dst B.length ⟨fun i => if i < bufSize d points.length then -1 else junk i, []⟩
    (List.range points.length) (le_refl _)
  set s := (List.range points.length).foldl (packOne points dst B.length) ⟨⟨fun i => if i < bufSize d points.length then -1 else junk i, []⟩, 0, 0⟩ with hs
  have hfill : fill junk points dst = s.mem.setRow (0 * (d + 1)) ((B.length : K) :: (A.length : K) :: List.replicate (d - 1) 0) := by
    rw [Nat.zero_mul, Mem.setRow, Mem.setRow]
    rfl
  have hlen : ((B.length : K) :: (A.length : K) :: List.replicate (d - 1) 0).length = d + 1 := by simp; omega
  rw [hfill]
  refine ⟨?_, ?_, ?_, ?_⟩
  · rw [rowAt_setRow _ _ _ hlen, if_pos rfl]
  · intro i hi
    rw [rowAt_setRow _ _ _ hlen, if_neg (by omega)]
    exact h3 i hi
  · intro i hi
    rw [rowAt_setRow _ _ _ hlen, if_neg (by omega)]
    exact h4 i hi
  · intro j
    rw [writes_setRow, hlen, h5]
    simp only [List.not_mem_nil, false_or]
    have g1 : (B.length + 1) * (d + 1) ≤ (B.length + A.length + 1) * (d + 1) := Nat.mul_le_mul_right _ (by omega)
    have g2 : d + 1 ≤ (B.length + 1) * (d + 1) := Nat.le_mul_of_pos_left _ (by omega)
    change 0 * (d + 1) ≤ j ∧ j < 0 * (d + 1) + (d + 1) ∨ d + 1 ≤ j ∧ j < (B.length + 1) * (d + 1) ∨
      (B.length + 1) * (d + 1) ≤ j ∧ j < (B.length + A.length + 1) * (d + 1) ↔ _
    generalize (B.length + 1) * (d + 1) = x at *
    generalize (B.length + A.length + 1) * (d + 1) = y at *
    omega

theorem toRows_spec (hd : 1 ≤ d) :
    let B := going dst false (List.range points.length)
    let A := going dst true (List.range points.length)
    ∃ rest, toRows d points.length (fill junk points dst) = ((B.length : K) :: (A.length : K) :: List.replicate (d - 1) 0) ::
      (B.map (rowOf points) ++ A.map (rowOf points) ++ rest) := by
  intro B A
  obtain ⟨h1, h2, h3, -⟩ := fill_spec junk points dst hd
  have hl : B.length + A.length ≤ points.length := going_length dst _
  refine ⟨(List.range' (1 + B.length + A.length) (points.length - (B.length + A.length))).map (rowAt d (fill junk points dst)), ?_⟩
  have hr : List.range (1 + points.length) = 0 :: (List.range' 1 B.length ++ List.range' (1 + B.length) A.length ++
      List.range' (1 + B.length + A.length) (points.length - (B.length + A.length))) := by
    rw [List.range_eq_range', Nat.add_comm, List.range'_succ, List.range'_append_1, Nat.add_assoc 1, List.range'_append_1]
    congr 2; omega
  change (List.range (1 + points.length)).map (rowAt d (fill junk points dst)) = _
  rw [hr, List.map_cons, List.map_append, List.map_append, h1]
  congr 3
  · apply List.ext_getElem
    · simp
    · intro i hi hi'
      simp only [List.length_map, List.length_range'] at hi
      simp only [List.getElem_map, List.getElem_range', Nat.one_mul]
      rw [Nat.add_comm]
      exact h2 i hi
  · apply List.ext_getElem
    · simp
    · intro i hi hi'
      simp only [List.length_map, List.length_range'] at hi
      simp only [List.getElem_map, List.getElem_range', Nat.one_mul]
      rw [show 1 + B.length + i = B.length + i + 1 by omega]
      exact h3 i hi

end fill

/-! ## C67 -/

/-- **C67, packing.** The returned array: a header with the two counts, then one row (coordinates, number) per vertex sent below, then one per vertex sent
above, each in ascending order of the vertex numbers; no vertex appears twice; and a vertex is in a list iff it is exported there.
`junk` is the memory behind the buffer. -/
theorem C67_packing (hd : 1 ≤ d) (G : Geo d K) (junk : ℕ → K) (points : List (Fin d → K)) (faces : List (List ℕ)) (below above : Box d K) :
    ∃ (B A : List ℕ) (rest : List (List K)),
      whereTo G junk points faces below above = ((B.length : K) :: (A.length : K) :: List.replicate (d - 1) 0) ::
        (B.map (fun iv => List.ofFn (points.getD iv default) ++ [(iv : K)]) ++ A.map (fun iv => List.ofFn (points.getD iv default) ++ [(iv : K)]) ++ rest) ∧
      B.Pairwise (· < ·) ∧ A.Pairwise (· < ·) ∧ (∀ iv ∈ B, iv ∉ A) ∧
      (∀ iv, iv ∈ B ↔ iv < points.length ∧ Exported G below above points faces iv false) ∧
      (∀ iv, iv ∈ A ↔ iv < points.length ∧ Exported G below above points faces iv true) := by
  obtain ⟨rest, h⟩ := toRows_spec junk points (dest G below above points faces) hd
  refine ⟨_, _, rest, h, List.Pairwise.filter _ List.pairwise_lt_range, List.Pairwise.filter _ List.pairwise_lt_range, ?_, ?_, ?_⟩
  · intro iv hB hA
    simp only [going, List.mem_filter, decide_eq_true_eq] at hB hA
    rw [hB.2] at hA
    cases hA.2
  · intro iv
    simp only [going, List.mem_filter, decide_eq_true_eq, List.mem_range]
    exact and_congr_right fun h => dest_iff G below above points faces h false
  · intro iv
    simp only [going, List.mem_filter, decide_eq_true_eq, List.mem_range]
    exact and_congr_right fun h => dest_iff G below above points faces h true

/-- The coordinates of the vertices exported in direction `b`, in ascending order. -/
noncomputable def exportedPoints (G : Geo d K) (below above : Box d K) (points : List (Fin d → K)) (faces : List (List ℕ)) (b : Bool) : List (List K) :=
  open Classical in ((List.range points.length).filter fun iv => Exported G below above points faces iv b).map fun iv => List.ofFn (points.getD iv default)

/-- **C67, unpacking.** `exchange` recovers exactly the lists of coordinates of the exported vertices. -/
theorem C67_unpacks (hd : 1 ≤ d) (G : Geo d K) (junk : ℕ → K) (points : List (Fin d → K)) (faces : List (List ℕ)) (below above : Box d K) :
    Exchange.Packed d (whereTo G junk points faces below above) (exportedPoints G below above points faces false)
      (exportedPoints G below above points faces true) := by
  obtain ⟨rest, h⟩ := toRows_spec junk points (dest G below above points faces) hd
  have hE : ∀ b, exportedPoints G below above points faces b =
      (going (dest G below above points faces) b (List.range points.length)).map fun iv => List.ofFn (points.getD iv default) := by
    intro b
    unfold exportedPoints going
    congr 1
    apply List.filter_congr
    intro iv hiv
    rw [decide_eq_decide, dest_iff _ _ _ _ _ (List.mem_range.1 hiv)]
  have ht : ∀ l : List ℕ, (l.map (rowOf points)).map (fun row => row.take d) = l.map fun iv => List.ofFn (points.getD iv default) := by
    intro l
    rw [List.map_map]
    apply List.map_congr_left
    intro iv _
    simp [rowOf]
  refine ⟨List.replicate (d - 1) 0, (going (dest G below above points faces) false (List.range points.length)).map (rowOf points),
    (going (dest G below above points faces) true (List.range points.length)).map (rowOf points), rest, ?_, ?_, ?_⟩
  · rw [hE, hE, List.length_map, List.length_map]
    exact h
  · rw [ht, hE]
  · rw [ht, hE]

/-- **C67, end to end.** If every rank exports something to each of its neighbours, then packing followed by the exchange
completes under every schedule and buffering behaviour, and every rank receives exactly the coordinates of the vertices that `r + 1` exports below
followed by those that `r - 1` exports above. -/
theorem C67_end_to_end [FloorSemiring K] (hd : 1 ≤ d) {P : ℕ} (hP : 2 ≤ P) (G : Geo d K) (junk : ℕ → ℕ → K) (extents : List (List K)) (points : ℕ → List (Fin d → K))
    (faces : ℕ → List (List ℕ)) (box : ℕ → Box d K × Box d K) (hbox : ∀ r < P, neighbours extents r P = .ok (box r))
    (hB : ∀ r < P, r ≠ 0 → ∃ iv < (points r).length, Exported G (box r).1 (box r).2 (points r) (faces r) iv false)
    (hA : ∀ r, r + 1 < P → ∃ iv < (points r).length, Exported G (box r).1 (box r).2 (points r) (faces r) iv true) :
    Mpi.Completes P (fun r => (Mpi.lift (enqueue G (junk r) extents (points r) (faces r) r P)).bind (Exchange.exchange r P d))
      (Exchange.incoming P (fun r => exportedPoints G (box r).1 (box r).2 (points r) (faces r) false)
        (fun r => exportedPoints G (box r).1 (box r).2 (points r) (faces r) true)) := by
  have hne : ∀ r b, (∃ iv < (points r).length, Exported G (box r).1 (box r).2 (points r) (faces r) iv b) →
      exportedPoints G (box r).1 (box r).2 (points r) (faces r) b ≠ [] := by
    rintro r b ⟨iv, hiv, he⟩ h
    simp only [exportedPoints, List.map_eq_nil_iff, List.filter_eq_nil_iff, List.mem_range, decide_eq_true_eq] at h
    exact h iv hiv he
  refine Exchange.exchange_completes (dim := d) hP (E := fun r => whereTo G (junk r) (points r) (faces r) (box r).1 (box r).2)
    (fun r _ => C67_unpacks hd G (junk r) (points r) (faces r) (box r).1 (box r).2)
    (fun r hr h0 => hne r false (hB r hr h0)) (fun r hr => hne r true (hA r hr)) fun r hr => ?_
  simp only [enqueue, hbox r hr, bind, Except.bind, pure, Except.pure, Mpi.lift, Mpi.Proc.bind]

/-- Two ranks, one triangle each, with a common vertex on the common face of their blocks: the hypotheses hold. -/
example : let ext : List (List ℚ) := [[0, 0, 2, 2], [0, 2, 2, 4]]
    let points : ℕ → List (Fin 2 → ℚ) := fun r => if r = 0 then [![0, 0], ![2, 0], ![1, 2]] else [![1, 2], ![0, 4], ![2, 4]]
    let box : ℕ → Box 2 ℚ × Box 2 ℚ := fun r => if r = 0 then (dummy, boxOf [0, 2, 2, 4]) else (boxOf [0, 0, 2, 2], dummy)
    (∀ r < 2, neighbours ext r 2 = .ok (box r)) ∧ Exported (geo2 true) (box 1).1 (box 1).2 (points 1) [[0, 1, 2]] 0 false ∧
      Exported (geo2 true) (box 0).1 (box 0).2 (points 0) [[0, 1, 2]] 0 true := by
  intro ext points box
  refine ⟨?_, ?_, ?_⟩
  · intro r hr
    have : r = 0 ∨ r = 1 := by omega
    rcases this with rfl | rfl <;> rfl
  · rw [← dest_iff _ _ _ _ _ (by decide)]; decide +kernel
  · rw [← dest_iff _ _ _ _ _ (by decide)]; decide +kernel

/-! ## C68 -/

/-- **C68 is false: reads.** Copying the result always reads behind the end of the buffer. -/
theorem C68_reads_false (hd : 1 ≤ d) (n : ℕ) : ∃ j ∈ reads d n, bufSize d n ≤ j := by
  refine ⟨bufSize d n, ?_, le_refl _⟩
  rw [reads, List.mem_range, bufSize]
  have : (1 + n) * (d + 1) = n * (d + 1) + (d + 1) := by ring
  omega

/-- **C68, writes.** All writes are within the buffer iff not all vertices are exported (and there is a vertex at all). -/
theorem C68_writes_iff_partial (hd : 1 ≤ d) (G : Geo d K) (junk : ℕ → K) (points : List (Fin d → K)) (faces : List (List ℕ)) (below above : Box d K) :
    (∀ j ∈ (fill junk points (dest G below above points faces)).writes, j < bufSize d points.length) ↔
      ∃ iv < points.length, ∀ b, ¬ Exported G below above points faces iv b := by
  obtain ⟨-, -, -, h⟩ := fill_spec junk points (dest G below above points faces) hd
  set B := going (dest G below above points faces) false (List.range points.length) with hB
  set A := going (dest G below above points faces) true (List.range points.length) with hA
  have hle : B.length + A.length ≤ points.length := going_length _ _
  have h1 : (∀ j ∈ (fill junk points (dest G below above points faces)).writes, j < bufSize d points.length) ↔ B.length + A.length < points.length := by
    simp only [h]
    constructor
    · intro hj
      by_contra hc
      have he : B.length + A.length = points.length := by omega
      rw [he] at hj
      have := hj (bufSize d points.length) (by
        have : (points.length + 1) * (d + 1) = points.length * (d + 1) + (d + 1) := by ring
        rw [bufSize]; omega)
      omega
    · intro hlt j hj
      have : (B.length + A.length + 1) * (d + 1) ≤ points.length * (d + 1) := Nat.mul_le_mul_right _ hlt
      rw [bufSize]; omega
  have h2 : ∀ l : List ℕ, ((going (dest G below above points faces) false l).length + (going (dest G below above points faces) true l).length < l.length) ↔
      ∃ iv ∈ l, dest G below above points faces iv = none := by
    intro l
    induction l with
    | nil => simp
    | cons a l ih =>
      have hl : (going (dest G below above points faces) false l).length + (going (dest G below above points faces) true l).length ≤ l.length := by
        clear ih
        induction l with
        | nil => simp
        | cons a l ih =>
          simp only [going, List.filter_cons, List.length_cons] at ih ⊢
          cases h : dest G below above points faces a with
          | none => simp; omega
          | some b => cases b <;> simp <;> omega
      simp only [going, List.filter_cons, List.length_cons, List.mem_cons, exists_eq_or_imp] at ih hl ⊢
      rw [← ih]
      cases h : dest G below above points faces a with
      | none => simp; omega
      | some b => cases b <;> simp <;> omega
  rw [h1]
  have := h2 (List.range points.length)
  rw [List.length_range] at this
  rw [this]
  constructor
  · rintro ⟨iv, hiv, hn⟩
    refine ⟨iv, List.mem_range.1 hiv, fun b hb => ?_⟩
    rw [← dest_iff _ _ _ _ _ (List.mem_range.1 hiv), hn] at hb
    cases hb
  · rintro ⟨iv, hiv, hn⟩
    refine ⟨iv, List.mem_range.2 hiv, ?_⟩
    cases hx : dest G below above points faces iv with
    | none => rfl
    | some b => exact absurd ((dest_iff _ _ _ _ _ hiv b).1 hx) (hn b)

/-- **C68 is false: writes.** A triangle that overlaps the neighbour's block: all its vertices are exported, and the last row is written behind the end of the buffer
(for both meanings of `do_intersect`). -/
theorem C68_writes_false (curve : Bool) : ∃ (points : List (Fin 2 → ℚ)) (below above : Box 2 ℚ), points.length = 3 ∧
    ∃ j ∈ (fill (fun _ => 0) points (dest (geo2 curve) below above points [[0, 1, 2]])).writes, bufSize 2 3 ≤ j := by
  refine ⟨[![0, 0], ![2, 0], ![1, 2]], ⟨![0, -1], ![2, 0]⟩, ⟨![0, 5], ![2, 6]⟩, rfl, 11, ?_, by decide⟩
  cases curve <;> decide +kernel

/-! ## C69 -/

/-- The point `x` lies in the box. -/
def InBox (x : Fin d → K) (B : Box d K) : Prop := ∀ k, B.lo k ≤ x k ∧ x k ≤ B.hi k

/-- `o` and `r2` are centre and squared radius of the ball through the points `c`. -/
def Circumball (c : List (Fin d → K)) (o : Fin d → K) (r2 : K) : Prop := ∀ u ∈ c, dist2 u o = r2

/-- The ball meets the box. -/
def BallMeets (o : Fin d → K) (r2 : K) (B : Box d K) : Prop := ∃ x, InBox x B ∧ dist2 x o ≤ r2

omit [Inhabited (Fin d → K)] in
theorem nearest2_iff {B : Box d K} (hB : ∀ k, B.lo k ≤ B.hi k) (o : Fin d → K) (r2 : K) : nearest2 B o ≤ r2 ↔ BallMeets o r2 B := by
  constructor
  · intro h
    refine ⟨fun k => max (B.lo k) (min (o k) (B.hi k)), fun k => ⟨le_max_left _ _, max_le (hB k) (min_le_right _ _)⟩, le_trans (le_of_eq ?_) h⟩
    unfold dist2 nearest2
    refine Finset.sum_congr rfl fun k _ => ?_
    have := hB k
    beta_reduce
    rcases le_total (o k) (B.hi k) with h1 | h1
    · rw [min_eq_left h1]
      rcases le_total (B.lo k) (o k) with h2 | h2
      · rw [max_eq_right h2, max_eq_right (max_le (by linarith) (by linarith))]; ring
      · rw [max_eq_left h2, max_eq_left (le_trans (show (0 : K) ≤ B.lo k - o k by linarith) (le_max_left _ _)), max_eq_left (by linarith)]
    · rw [min_eq_right h1, max_eq_right this, max_eq_left (le_trans (show (0 : K) ≤ o k - B.hi k by linarith) (le_max_right _ _)), max_eq_right (by linarith)]
      ring
  · rintro ⟨x, hx, h⟩
    refine le_trans ?_ h
    unfold dist2 nearest2
    refine Finset.sum_le_sum fun k _ => ?_
    obtain ⟨h1, h2⟩ := hx k
    have habs : max (max (B.lo k - o k) (o k - B.hi k)) 0 ≤ |x k - o k| := by
      refine max_le (max_le ?_ ?_) (abs_nonneg _)
      · exact le_trans (by linarith) (le_abs_self _)
      · exact le_trans (by linarith) (neg_le_abs _)
    rw [← sq_abs (x k - o k)]
    exact pow_le_pow_left₀ (le_max_right _ _) habs 2

omit [Inhabited (Fin d → K)] in
/-- The circumcentre formula is right. -/
theorem circumcenter_spec {a b c : Fin 2 → K} (h : area2 a b c ≠ 0) : Circumball [a, b, c] (circumcenter a b c) (dist2 a (circumcenter a b c)) := by
  have hD : (b 0 - a 0) * (c 1 - a 1) - (b 1 - a 1) * (c 0 - a 0) ≠ 0 := h
  intro u hu
  simp only [List.mem_cons, List.not_mem_nil, or_false] at hu
  have e0 : circumcenter a b c 0 = a 0 + ((c 1 - a 1) * ((b 0 - a 0) ^ 2 + (b 1 - a 1) ^ 2) - (b 1 - a 1) * ((c 0 - a 0) ^ 2 + (c 1 - a 1) ^ 2)) /
      (2 * ((b 0 - a 0) * (c 1 - a 1) - (b 1 - a 1) * (c 0 - a 0))) := rfl
  have e1 : circumcenter a b c 1 = a 1 + ((b 0 - a 0) * ((c 0 - a 0) ^ 2 + (c 1 - a 1) ^ 2) - (c 0 - a 0) * ((b 0 - a 0) ^ 2 + (b 1 - a 1) ^ 2)) /
      (2 * ((b 0 - a 0) * (c 1 - a 1) - (b 1 - a 1) * (c 0 - a 0))) := rfl
  have hD2 : 2 * ((b 0 - a 0) * (c 1 - a 1) - (b 1 - a 1) * (c 0 - a 0)) ≠ 0 := mul_ne_zero two_ne_zero hD
  generalize hX : ((c 1 - a 1) * ((b 0 - a 0) ^ 2 + (b 1 - a 1) ^ 2) - (b 1 - a 1) * ((c 0 - a 0) ^ 2 + (c 1 - a 1) ^ 2)) /
      (2 * ((b 0 - a 0) * (c 1 - a 1) - (b 1 - a 1) * (c 0 - a 0))) = X at e0
  generalize hY : ((b 0 - a 0) * ((c 0 - a 0) ^ 2 + (c 1 - a 1) ^ 2) - (c 0 - a 0) * ((b 0 - a 0) ^ 2 + (b 1 - a 1) ^ 2)) /
      (2 * ((b 0 - a 0) * (c 1 - a 1) - (b 1 - a 1) * (c 0 - a 0))) = Y at e1
  rw [div_eq_iff hD2] at hX hY
  have hb : (b 0 - a 0) ^ 2 + (b 1 - a 1) ^ 2 - 2 * (b 0 - a 0) * X - 2 * (b 1 - a 1) * Y = 0 := by
    refine (mul_eq_zero.1 (?_ : (2 * ((b 0 - a 0) * (c 1 - a 1) - (b 1 - a 1) * (c 0 - a 0))) * _ = 0)).resolve_left hD2
    linear_combination 2 * (b 0 - a 0) * hX + 2 * (b 1 - a 1) * hY
  have hc : (c 0 - a 0) ^ 2 + (c 1 - a 1) ^ 2 - 2 * (c 0 - a 0) * X - 2 * (c 1 - a 1) * Y = 0 := by
    refine (mul_eq_zero.1 (?_ : (2 * ((b 0 - a 0) * (c 1 - a 1) - (b 1 - a 1) * (c 0 - a 0))) * _ = 0)).resolve_left hD2
    linear_combination 2 * (c 0 - a 0) * hX + 2 * (c 1 - a 1) * hY
  have key : ∀ v : Fin 2 → K, dist2 v (circumcenter a b c) = (v 0 - (a 0 + X)) ^ 2 + (v 1 - (a 1 + Y)) ^ 2 := by
    intro v; rw [dist2, Fin.sum_univ_two, e0, e1]
  rw [key, key]
  rcases hu with rfl | rfl | rfl
  · rfl
  · linear_combination hb
  · linear_combination hc

omit [Inhabited (Fin d → K)] in
/-- The ball through three points that are not on a line is unique. -/
theorem circumball_unique {a b c : Fin 2 → K} (h : area2 a b c ≠ 0) {o o' : Fin 2 → K} {r r' : K} (h1 : Circumball [a, b, c] o r)
    (h2 : Circumball [a, b, c] o' r') : o = o' ∧ r = r' := by
  have hD : (b 0 - a 0) * (c 1 - a 1) - (b 1 - a 1) * (c 0 - a 0) ≠ 0 := h
  have ha := h1 a (by simp)
  have hb := h1 b (by simp)
  have hc := h1 c (by simp)
  have ha' := h2 a (by simp)
  have hb' := h2 b (by simp)
  have hc' := h2 c (by simp)
  simp only [dist2, Fin.sum_univ_two] at ha hb hc ha' hb' hc'
  have e1 : (b 0 - a 0) * (o 0 - o' 0) + (b 1 - a 1) * (o 1 - o' 1) = 0 := by linear_combination (ha - hb - ha' + hb') / 2
  have e2 : (c 0 - a 0) * (o 0 - o' 0) + (c 1 - a 1) * (o 1 - o' 1) = 0 := by linear_combination (ha - hc - ha' + hc') / 2
  have x0 : o 0 - o' 0 = 0 := by
    have : ((b 0 - a 0) * (c 1 - a 1) - (b 1 - a 1) * (c 0 - a 0)) * (o 0 - o' 0) = 0 := by linear_combination (c 1 - a 1) * e1 - (b 1 - a 1) * e2
    exact (mul_eq_zero.1 this).resolve_left hD
  have x1 : o 1 - o' 1 = 0 := by
    have : ((b 0 - a 0) * (c 1 - a 1) - (b 1 - a 1) * (c 0 - a 0)) * (o 1 - o' 1) = 0 := by linear_combination (b 0 - a 0) * e2 - (c 0 - a 0) * e1
    exact (mul_eq_zero.1 this).resolve_left hD
  have ho : o = o' := by
    funext k
    fin_cases k
    · exact sub_eq_zero.1 x0
    · exact sub_eq_zero.1 x1
  subst ho
  exact ⟨rfl, by rw [← ha, ← ha']⟩

omit [Inhabited (Fin d → K)] in
/-- With discs, the 2-D test is exact: it accepts iff the circumball of the triangle meets the box. -/
theorem geo2_meets {a b c : Fin 2 → K} (h : area2 a b c ≠ 0) {B : Box 2 K} (hB : ∀ k, B.lo k ≤ B.hi k) {o : Fin 2 → K} {r2 : K}
    (hb : Circumball [a, b, c] o r2) : (geo2 false).meets [a, b, c] B = true ↔ BallMeets o r2 B := by
  obtain ⟨rfl, rfl⟩ := circumball_unique h hb (circumcenter_spec h)
  rw [← nearest2_iff hB]
  simp [geo2]

/-- **C69 is false: the filter.** A triangle, not flat, whose circumball reaches far into the block below (here it contains all of that block), but whose bounding
box does not reach it: none of its vertices is exported, whatever `do_intersect` answers. -/
theorem C69_false_filter : ∃ (points : List (Fin 2 → ℚ)) (o : Fin 2 → ℚ) (below above : Box 2 ℚ), points.length = 3 ∧
    Circumball points o 169 ∧ area2 (points.getD 0 0) (points.getD 1 0) (points.getD 2 0) ≠ 0 ∧ BallMeets o 169 below ∧
    ∀ (G : Geo 2 ℚ) (iv : ℕ) (b : Bool), iv < 3 → ¬ Exported G below above points [[0, 1, 2]] iv b := by
  refine ⟨[![-5, 0], ![5, 0], ![0, 1]], ![0, -12], ⟨![-3, -20], ![3, -5]⟩, ⟨![-3, 5], ![3, 20]⟩, rfl, ?_, by decide +kernel, ⟨![0, -12], ?_, by decide +kernel⟩, ?_⟩
  · intro u hu
    simp only [List.mem_cons, List.not_mem_nil, or_false] at hu
    rcases hu with rfl | rfl | rfl <;> decide +kernel
  · intro k; fin_cases k <;> decide +kernel
  · intro G iv b hiv
    rw [← dest_iff _ _ _ _ _ hiv]
    have hv : (buildVtoe 3 [[0, 1, 2]]).getD iv [] = [0] := by
      have : iv = 0 ∨ iv = 1 ∨ iv = 2 := by omega
      rcases this with rfl | rfl | rfl <;> decide
    unfold dest
    simp only [List.length_cons, List.length_nil, Nat.zero_add, Nat.reduceAdd, hv]
    rw [List.findSome?_cons, judge, if_neg]
    · simp
    · decide +kernel

/-- **C69 is false: the filter, 3-D.** -/
theorem C69_false_filter3 : ∃ (points : List (Fin 3 → ℚ)) (o : Fin 3 → ℚ) (below above : Box 3 ℚ), points.length = 4 ∧
    Circumball points o 169 ∧ BallMeets o 169 below ∧
    ∀ (G : Geo 3 ℚ) (iv : ℕ) (b : Bool), iv < 4 → ¬ Exported G below above points [[0, 1, 2, 3]] iv b := by
  refine ⟨[![-5, 0, 0], ![5, 0, 0], ![0, 5, 0], ![0, 0, 1]], ![0, 0, -12], ⟨![-3, -3, -20], ![3, 3, -5]⟩, ⟨![-3, -3, 5], ![3, 3, 20]⟩, rfl, ?_,
    ⟨![0, 0, -12], ?_, by decide +kernel⟩, ?_⟩
  · intro u hu
    simp only [List.mem_cons, List.not_mem_nil, or_false] at hu
    rcases hu with rfl | rfl | rfl | rfl <;> decide +kernel
  · intro k; fin_cases k <;> decide +kernel
  · intro G iv b hiv
    rw [← dest_iff _ _ _ _ _ hiv]
    have hv : (buildVtoe 4 [[0, 1, 2, 3]]).getD iv [] = [0] := by
      have : iv = 0 ∨ iv = 1 ∨ iv = 2 ∨ iv = 3 := by omega
      rcases this with rfl | rfl | rfl | rfl <;> decide
    unfold dest
    simp only [List.length_cons, List.length_nil, Nat.zero_add, Nat.reduceAdd, hv]
    rw [List.findSome?_cons, judge, if_neg]
    · simp
    · decide +kernel

/-- **C69 is false: one direction only.** A triangle that touches both neighbouring blocks: its vertices are sent below only, although its circumball
meets the block above as well (for both meanings of `do_intersect`). -/
theorem C69_false_one_side (curve : Bool) : ∃ (points : List (Fin 2 → ℚ)) (o : Fin 2 → ℚ) (r2 : ℚ) (below above : Box 2 ℚ), points.length = 3 ∧
    Circumball points o r2 ∧ BallMeets o r2 above ∧
    ∀ iv < 3, Exported (geo2 curve) below above points [[0, 1, 2]] iv false ∧ ¬ Exported (geo2 curve) below above points [[0, 1, 2]] iv true := by
  refine ⟨[![0, 0], ![2, 0], ![1, 2]], ![1, 3 / 4], 25 / 16, ⟨![0, -1], ![2, 0]⟩, ⟨![0, 2], ![2, 3]⟩, rfl, ?_, ⟨![1, 2], ?_, by decide +kernel⟩, ?_⟩
  · intro u hu
    simp only [List.mem_cons, List.not_mem_nil, or_false] at hu
    rcases hu with rfl | rfl | rfl <;> decide +kernel
  · intro k; fin_cases k <;> decide +kernel
  · intro iv hiv
    rw [← dest_iff _ _ _ _ _ hiv, ← dest_iff _ _ _ _ _ hiv]
    have : iv = 0 ∨ iv = 1 ∨ iv = 2 := by omega
    cases curve <;> rcases this with rfl | rfl | rfl <;> decide +kernel

/-- **C69, some direction.** Every vertex of an element that is not flat, whose bounding box reaches a neighbouring block and whose circumball meets one,
is exported, but possibly in the other direction only. -/
theorem C69_somewhere_partial (G : Geo d K) (below above : Box d K) (points : List (Fin d → K)) (faces : List (List ℕ)) {iv e : ℕ} {face : List ℕ}
    (hf : faces[e]? = some face) (hm : iv ∈ face) (hbox : BoxOverlap (coords points face) below ∨ BoxOverlap (coords points face) above)
    (hflat : G.flat (coords points face) = false) (hmeets : G.meets (coords points face) below = true ∨ G.meets (coords points face) above = true) :
    ∃ b, Exported G below above points faces iv b := by
  classical
  have hex : ∃ e : ℕ, ∃ face : List ℕ, faces[e]? = some face ∧ iv ∈ face ∧ ∃ b, Sends G below above (coords points face) b := by
    refine ⟨e, face, hf, hm, ?_⟩
    cases h : G.meets (coords points face) below with
    | true => exact ⟨false, hbox, hflat, by simpa using h⟩
    | false => exact ⟨true, hbox, hflat, by simpa [h] using hmeets⟩
  obtain ⟨face', hf', hm', b, hs⟩ := Nat.find_spec hex
  exact ⟨b, Nat.find hex, face', hf', hm', hs, fun e' face'' hlt hf'' hm'' b' hs' => Nat.find_min hex hlt ⟨face'', hf'', hm'', b', hs'⟩⟩

/-- **C69, the needed direction.** If moreover no element around the vertex meets the block on the other side, the vertex is exported in the needed direction. -/
theorem C69_direction_partial (G : Geo d K) (below above : Box d K) (points : List (Fin d → K)) (faces : List (List ℕ)) {iv e : ℕ} {face : List ℕ} {b : Bool}
    (hf : faces[e]? = some face) (hm : iv ∈ face) (hbox : BoxOverlap (coords points face) below ∨ BoxOverlap (coords points face) above)
    (hflat : G.flat (coords points face) = false) (hmeets : G.meets (coords points face) (if b then above else below) = true)
    (hother : ∀ face ∈ faces, iv ∈ face → G.meets (coords points face) (if b then below else above) = false) :
    Exported G below above points faces iv b := by
  obtain ⟨b', h⟩ := C69_somewhere_partial G below above points faces hf hm hbox hflat (by cases b <;> simp at hmeets <;> simp [hmeets])
  have hbb : b' = b := by
    obtain ⟨e', face', hf', hm', ⟨_, _, hs⟩, _⟩ := h
    have := hother face' (List.mem_of_getElem? hf') hm'
    cases b <;> cases b' <;> simp_all
  exact hbb ▸ h

/-- **C69, 2-D with exact discs.** The previous theorem in geometric terms, for the top rank or the bottom rank (the dummy block on the other side is met by no
circumball): every vertex of a triangle that is not flat, whose bounding box reaches the neighbour's block and whose circumball meets it, is exported
to the neighbour. -/
theorem C69_two_dim_partial (below above : Box 2 K) (points : List (Fin 2 → K)) (faces : List (List ℕ)) {iv e : ℕ} {u v w : ℕ} {b : Bool}
    [Inhabited (Fin 2 → K)] (hf : faces[e]? = some [u, v, w]) (hm : iv ∈ [u, v, w])
    (hbox : BoxOverlap (coords points [u, v, w]) (if b then above else below))
    (hflat : area2 (points.getD u default) (points.getD v default) (points.getD w default) ≠ 0)
    (hle : ∀ k, (if b then above else below).lo k ≤ (if b then above else below).hi k) {o : Fin 2 → K} {r2 : K}
    (hball : Circumball (coords points [u, v, w]) o r2) (hmeets : BallMeets o r2 (if b then above else below))
    (hother : ∀ face ∈ faces, iv ∈ face → (geo2 false).meets (coords points face) (if b then below else above) = false) :
    Exported (geo2 false) below above points faces iv b := by
  refine C69_direction_partial _ below above points faces hf hm ?_ ?_ ?_ hother
  · cases b
    · exact Or.inl hbox
    · exact Or.inr hbox
  · simp only [geo2, coords, List.map_cons, List.map_nil, decide_eq_false_iff_not]; exact hflat
  · exact (geo2_meets hflat hle hball).2 hmeets

/-- Two triangles of the top rank: the vertices of the lower one are exported below. -/
example : ∃ (points : List (Fin 2 → ℚ)) (faces : List (List ℕ)), faces.length = 2 ∧
    Exported (geo2 false) ⟨![0, -1], ![2, 0]⟩ dummy points faces 2 false ∧ ¬ ∃ b, Exported (geo2 false) ⟨![0, -1], ![2, 0]⟩ dummy points faces 3 b := by
  refine ⟨[![0, 0], ![2, 0], ![1, 2], ![0, 9], ![2, 9]], [[0, 1, 2], [2, 3, 4]], rfl, ?_, ?_⟩
  · rw [← dest_iff _ _ _ _ _ (by decide)]; decide +kernel
  · rintro ⟨b, h⟩
    rw [← dest_iff _ _ _ _ _ (by decide)] at h
    have : dest (K := ℚ) (geo2 false) ⟨![0, -1], ![2, 0]⟩ dummy [![0, 0], ![2, 0], ![1, 2], ![0, 9], ![2, 9]] [[0, 1, 2], [2, 3, 4]] 3 = (none : Option Bool) := by
      decide +kernel
    rw [this] at h
    cases h

/-! ### In terms of `enqueue` -/

/-- The list `ex` describes the block `B`: lower corner, then upper corner. -/
def IsBlock (ex : List K) (B : Box d K) : Prop := ∀ k : Fin d, ex[(k : ℕ)]? = some (B.lo k) ∧ ex[d + (k : ℕ)]? = some (B.hi k)

/-- `B` is what rank `r` looks at in direction `b` (`false` below, `true` above): the block announced by the next rank in that direction, or, if there is
none, a box far outside. -/
def Side (extents : List (List K)) (P r : ℕ) (b : Bool) (B : Box d K) : Prop :=
  (∃ s ex, (if b then s = r + 1 else s + 1 = r) ∧ s < P ∧ extents[s]? = some ex ∧ IsBlock ex B) ∨
    ((if b then r + 1 = P else r = 0) ∧ B = ⟨fun _ => -999999999, fun _ => -999999998⟩)

omit [LinearOrder K] [Inhabited (Fin d → K)] in
theorem isBlock_boxOf {ex : List K} (h : ex.length = 2 * d) : IsBlock ex (boxOf ex : Box d K) := by
  intro k
  have hk := k.2
  constructor
  · rw [List.getElem?_eq_getElem (by omega)]
    simp [boxOf, List.getD_eq_getElem?_getD, List.getElem?_eq_getElem (show (k : ℕ) < ex.length by omega)]
  · rw [List.getElem?_eq_getElem (by omega)]
    simp [boxOf, List.getD_eq_getElem?_getD, List.getElem?_eq_getElem (show d + (k : ℕ) < ex.length by omega)]

omit [LinearOrder K] [Inhabited (Fin d → K)] in
theorem isBlock_unique {ex : List K} {B B' : Box d K} (h : IsBlock ex B) (h' : IsBlock ex B') : B = B' := by
  obtain ⟨lo, hi⟩ := B
  obtain ⟨lo', hi'⟩ := B'
  congr 1
  · funext k; exact Option.some.inj ((h k).1.symm.trans (h' k).1)
  · funext k; exact Option.some.inj ((h k).2.symm.trans (h' k).2)

omit [LinearOrder K] [Inhabited (Fin d → K)] in
theorem neighbours_side {extents : List (List K)} {P r : ℕ} (hP : 2 ≤ P) (hr : r < P) (hl : extents.length = P) (hw : ∀ ex ∈ extents, ex.length = 2 * d) :
    ∃ B : Box d K × Box d K, neighbours extents r P = .ok B ∧ Side extents P r false B.1 ∧ Side extents P r true B.2 := by
  have hit : ∀ s, s < P → ∃ ex, item extents s = .ok ex ∧ extents[s]? = some ex ∧ IsBlock ex (boxOf ex : Box d K) := by
    intro s hs
    have h1 : extents[s]? = some extents[s] := List.getElem?_eq_getElem (by omega)
    exact ⟨extents[s], by simp only [item, h1], h1, isBlock_boxOf (hw _ (List.getElem_mem _))⟩
  unfold neighbours
  by_cases h0 : r = 0
  · obtain ⟨ex, h1, h2, h3⟩ := hit 1 (by omega)
    subst h0
    refine ⟨(dummy, boxOf ex), by simp [h1, bind, Except.bind, pure, Except.pure], .inr ⟨rfl, rfl⟩, .inl ⟨1, ex, rfl, by omega, h2, h3⟩⟩
  · obtain ⟨ex, h1, h2, h3⟩ := hit (r - 1) (by omega)
    rw [if_neg h0]
    by_cases hlast : r = P - 1
    · rw [if_pos hlast]
      refine ⟨(boxOf ex, dummy), by simp [h1, bind, Except.bind, pure, Except.pure], .inl ⟨r - 1, ex, ?_, by omega, h2, h3⟩, .inr ⟨?_, rfl⟩⟩
      · show r - 1 + 1 = r; omega
      · show r + 1 = P; omega
    · rw [if_neg hlast]
      obtain ⟨ex', h1', h2', h3'⟩ := hit (r + 1) (by omega)
      refine ⟨(boxOf ex, boxOf ex'), by simp [h1, h1', bind, Except.bind, pure, Except.pure], .inl ⟨r - 1, ex, ?_, by omega, h2, h3⟩,
        .inl ⟨r + 1, ex', rfl, by omega, h2', h3'⟩⟩
      show r - 1 + 1 = r; omega

omit [LinearOrder K] [Inhabited (Fin d → K)] in
theorem side_unique {extents : List (List K)} {P r : ℕ} (hr : r < P) {b : Bool} {B B' : Box d K} (h : Side extents P r b B) (h' : Side extents P r b B') :
    B = B' := by
  rcases h with ⟨s, ex, hs, hsP, he, hB⟩ | ⟨hn, rfl⟩ <;> rcases h' with ⟨s', ex', hs', hsP', he', hB'⟩ | ⟨hn', rfl⟩
  · have : s = s' := by cases b <;> simp at hs hs' <;> omega
    subst this
    rw [he] at he'
    cases he'
    exact isBlock_unique hB hB'
  · exfalso; cases b <;> simp at hs hn' <;> omega
  · exfalso; cases b <;> simp at hs' hn <;> omega
  · rfl

/-- **C69, the call.** `enqueue` on rank `r` of `P` with the announced extents. Let `B` be the block in direction `b` and `B'` the one on the other side.
A vertex of an element that is not flat, whose bounding box reaches one of them, whose circumball meets `B`, none of whose elements meets `B'`, is among the
points sent in direction `b`. -/
theorem C69_enqueue_partial (hd : 1 ≤ d) (G : Geo d K) (junk : ℕ → K) {extents : List (List K)} {P r : ℕ} (hP : 2 ≤ P) (hr : r < P) (hl : extents.length = P)
    (hw : ∀ ex ∈ extents, ex.length = 2 * d) (points : List (Fin d → K)) (faces : List (List ℕ)) {b : Bool} {B B' : Box d K}
    (hB : Side extents P r b B) (hB' : Side extents P r (!b) B') {iv e : ℕ} {x : Fin d → K} {face : List ℕ}
    (hf : faces[e]? = some face) (hm : iv ∈ face) (hx : points[iv]? = some x) (hbox : BoxOverlap (coords points face) B ∨ BoxOverlap (coords points face) B')
    (hflat : G.flat (coords points face) = false) (hmeets : G.meets (coords points face) B = true)
    (hother : ∀ face ∈ faces, iv ∈ face → G.meets (coords points face) B' = false) :
    ∃ rows down up, enqueue G junk extents points faces r P = .ok rows ∧ Exchange.Packed d rows down up ∧ List.ofFn x ∈ if b then up else down := by
  obtain ⟨⟨lo, hi⟩, hn, h1, h2⟩ := neighbours_side (d := d) hP hr hl hw
  refine ⟨whereTo G junk points faces lo hi, _, _, by simp only [enqueue, hn, bind, Except.bind, pure, Except.pure],
    C67_unpacks hd G junk points faces lo hi, ?_⟩
  have hiv : iv < points.length := (List.getElem?_eq_some_iff.1 hx).1
  have hmem : ∀ b, Exported G lo hi points faces iv b → List.ofFn x ∈ exportedPoints G lo hi points faces b := by
    intro b h
    unfold exportedPoints
    refine List.mem_map.2 ⟨iv, List.mem_filter.2 ⟨List.mem_range.2 hiv, by simpa using h⟩, ?_⟩
    simp [List.getD_eq_getElem?_getD, hx]
  cases b
  · have e1 := side_unique hr hB h1
    have e2 := side_unique hr hB' h2
    simp only at e1 e2
    subst e1 e2
    exact hmem false (C69_direction_partial G B B' points faces hf hm hbox hflat (by simpa using hmeets) (by simpa using hother))
  · have e1 := side_unique hr hB h2
    have e2 := side_unique hr hB' h1
    simp only at e1 e2
    subst e1 e2
    exact hmem true (C69_direction_partial G B' B points faces hf hm hbox.symm hflat (by simpa using hmeets) (by simpa using hother))

/-- Three ranks; the middle one sends the lower vertex of a triangle down. -/
example : ∃ rows down up, enqueue (K := ℚ) (geo2 false) (fun _ => 0) [[0, 0, 2, 2], [0, 2, 2, 4], [0, 9, 2, 10]] [![1, 2], ![0, 4], ![2, 4]] [[0, 1, 2]] 1 3 = .ok rows ∧
    Exchange.Packed 2 rows down up ∧ List.ofFn (![1, 2] : Fin 2 → ℚ) ∈ if false then up else down := by
  refine C69_enqueue_partial (d := 2) (by norm_num) (geo2 false) (fun _ => 0) (by norm_num) (by norm_num) rfl (by simp) _ _
    (P := 3) (r := 1) (b := false) (B := ⟨![0, 0], ![2, 2]⟩) (B' := ⟨![0, 9], ![2, 10]⟩) (.inl ⟨0, [0, 0, 2, 2], rfl, by norm_num, rfl, ?_⟩) (.inl ⟨2, [0, 9, 2, 10], rfl, by norm_num, rfl, ?_⟩)
    (iv := 0) (e := 0) rfl (by simp) rfl (.inl ?_) (by decide +kernel) (by decide +kernel) ?_
  · intro k; fin_cases k <;> exact ⟨rfl, rfl⟩
  · intro k; fin_cases k <;> exact ⟨rfl, rfl⟩
  · intro k
    fin_cases k <;> simp [coords]
  · intro face hf _
    rw [List.mem_singleton.1 hf]
    decide +kernel

end SM.WhereTo
