import Verif.Lemmas.FixMesh
import Mathlib.Data.List.Lex
import Mathlib.Data.Rat.Floor
import Mathlib.Tactic.Linarith
import Mathlib.Tactic.Ring
import Mathlib.Tactic.FieldSimp
import Mathlib.Tactic.NormNum
import Mathlib.Tactic.FinCases

/-!
# C31, C32, C33: `fix_mesh`

Statements are about every key function (byte string of a snapped point) and every injective
byte encoding `rk` of integer rows, hence about every order in which `np.unique` may return the
rows.
-/

namespace SM.FixMesh
open Np

variable {P κ ρ K : Type} [LinearOrder κ] [LinearOrder ρ] [LT K] [DecidableLT K] [Zero K]

/-- Connectivity entries are vertex numbers. -/
def InRange (p : List P) (t : List (List ℕ)) : Prop := ∀ r ∈ t, ∀ i ∈ r, i < p.length

/-- All that is needed about the result of `fix_mesh`. -/
theorem fixMesh_run (key : P → κ) {rk : List ℕ → ρ} (hrk : Function.Injective rk)
    (vol : List P → K) {p : List P} (hp : p ≠ []) {t : List (List ℕ)} (ht : InRange p t)
    (del ori : Bool) :
    ∃ p' t' jx', fixMesh key rk vol p t del ori = .ok (p', t', jx') ∧ Clean key p t p' t' ∧
      (del = true → ∀ i < p'.length, ∃ r ∈ t', i ∈ r) ∧
      (ori = true → ∀ r' ∈ t', ∃ r vs, Np.take p' r = .ok vs ∧
        r' = if vol vs < 0 then swap01 r else r) ∧
      (del = false → ∀ i < p.length, ∃ j, jx'[i]? = some j ∧ j < p'.length ∧
        (p'[j]?).map key = (p[i]?).map key) := by
  have he : p.isEmpty = false := by simpa using hp
  obtain ⟨p1, hp1, -, -, hjx⟩ := stage1 key p
  obtain ⟨t1, ht1, hc2⟩ := stage2 hrk ht hp1
  have fin : ∀ (p3 : List P) (t3 : List (List ℕ)) (jx3 : List ℕ), Clean key p t p3 t3 →
      (del = true → ∀ i < p3.length, ∃ r ∈ t3, i ∈ r) →
      (del = false → ∀ i < p.length, ∃ j, jx3[i]? = some j ∧ j < p3.length ∧
        (p3[j]?).map key = (p[i]?).map key) →
      ((if del then do
          let pix := uniqBy id (uniqBy rk (t1.map sortRow)).flatten
          let p' ← Np.take p1 pix
          pure (p', (uniqBy rk (t1.map sortRow)).map fun r => r.map fun v => pix.idxOf v,
            uniqInverse (uniqBy rk (t1.map sortRow)).flatten)
        else pure (p1, uniqBy rk (t1.map sortRow), uniqInverse (p.map key)) :
          Except String (List P × List (List ℕ) × List ℕ)) = .ok (p3, t3, jx3)) →
      ∃ p' t' jx', fixMesh key rk vol p t del ori = .ok (p', t', jx') ∧ Clean key p t p' t' ∧
      (del = true → ∀ i < p'.length, ∃ r ∈ t', i ∈ r) ∧
      (ori = true → ∀ r' ∈ t', ∃ r vs, Np.take p' r = .ok vs ∧
        r' = if vol vs < 0 then swap01 r else r) ∧
      (del = false → ∀ i < p.length, ∃ j, jx'[i]? = some j ∧ j < p'.length ∧
        (p'[j]?).map key = (p[i]?).map key) := by
    intro p3 t3 jx3 hc hu hj hrun
    obtain ⟨t4, h4, hc4, hF⟩ := stage4 (vol := vol) hc
    cases ori with
    | false =>
      refine ⟨p3, t3, jx3, ?_, hc, hu, by simp, hj⟩
      unfold fixMesh
      simp only [bind, Except.bind, pure, Except.pure] at hrun
      simp only [he, hp1, ht1, bind, Except.bind, pure, Except.pure, Bool.false_eq_true, if_false]
      rw [hrun]
    | true =>
      refine ⟨p3, t4, jx3, ?_, hc4, ?_, ?_, hj⟩
      · unfold fixMesh
        simp only [bind, Except.bind, pure, Except.pure] at hrun
        simp only [he, hp1, ht1, bind, Except.bind, pure, Except.pure, Bool.false_eq_true, if_false,
          if_true]
        rw [hrun]
        simp only [h4]
      · intro hd i hi
        obtain ⟨r, hr, hir⟩ := hu hd i hi
        obtain ⟨r', hr', h, -⟩ := forall₂_left hF r hr
        exact ⟨r', hr', h.mem_iff.2 hir⟩
      · intro _ r' hr'
        obtain ⟨r, -, -, vs, hvs, h⟩ := forall₂_right hF r' hr'
        exact ⟨r, vs, hvs, h⟩
  cases del with
  | false => exact fin p1 _ _ hc2 (by simp) (fun _ => hjx) rfl
  | true =>
    obtain ⟨p3, hp3, hc3, hu⟩ := stage3 hc2
    exact fin p3 _ _ hc3 (fun _ => hu) (by simp)
      (by simp only [if_true, bind, Except.bind, pure, Except.pure]; rw [hp3])

/-- **C31.** `fix_mesh(delete_unused=True)` on any non-empty mesh with valid connectivity
succeeds; afterwards all connectivity entries are vertex numbers, every vertex is used, no two
entities have the same vertices, and no two vertices have the same snapped position. -/
theorem C31_clean (key : P → κ) {rk : List ℕ → ρ} (hrk : Function.Injective rk) (vol : List P → K)
    {p : List P} (hp : p ≠ []) {t : List (List ℕ)} (ht : InRange p t) (ori : Bool) :
    ∃ p' t' jx', fixMesh key rk vol p t true ori = .ok (p', t', jx') ∧
      InRange p' t' ∧ (∀ i < p'.length, ∃ r ∈ t', i ∈ r) ∧
      t'.Pairwise (fun r s => ¬ r.Perm s) ∧ p'.Pairwise (fun a b => key a ≠ key b) := by
  obtain ⟨p', t', jx', h, hc, hu, -, -⟩ := fixMesh_run key hrk vol hp ht true ori
  refine ⟨p', t', jx', h, hc.inRange, hu rfl, hc.rows, ?_⟩
  have := hc.distinct
  unfold List.Nodup at this
  rwa [List.pairwise_map] at this

/-- **C31 (keeping unused vertices).** The same without `delete_unused`, except that vertices
may be unused; the third result then maps old vertex numbers to new ones. -/
theorem C31_keep_unused (key : P → κ) {rk : List ℕ → ρ} (hrk : Function.Injective rk)
    (vol : List P → K) {p : List P} (hp : p ≠ []) {t : List (List ℕ)} (ht : InRange p t)
    (ori : Bool) :
    ∃ p' t' jx', fixMesh key rk vol p t false ori = .ok (p', t', jx') ∧
      InRange p' t' ∧ t'.Pairwise (fun r s => ¬ r.Perm s) ∧
      p'.Pairwise (fun a b => key a ≠ key b) ∧
      ∀ i < p.length, ∃ j, jx'[i]? = some j ∧ j < p'.length ∧
        (p'[j]?).map key = (p[i]?).map key := by
  obtain ⟨p', t', jx', h, hc, -, -, hj⟩ := fixMesh_run key hrk vol hp ht false ori
  refine ⟨p', t', jx', h, hc.inRange, hc.rows, ?_, hj rfl⟩
  have := hc.distinct
  unfold List.Nodup at this
  rwa [List.pairwise_map] at this

/-- **C32.** Every entity returned has, counted with multiplicity, the snapped vertex positions
of an input entity; every input entity is represented; every returned vertex is an input vertex. -/
theorem C32_geometry (key : P → κ) {rk : List ℕ → ρ} (hrk : Function.Injective rk)
    (vol : List P → K) {p : List P} (hp : p ≠ []) {t : List (List ℕ)} (ht : InRange p t)
    (del ori : Bool) :
    ∃ p' t' jx', fixMesh key rk vol p t del ori = .ok (p', t', jx') ∧
      (∀ x ∈ p', x ∈ p) ∧
      (∀ r' ∈ t', ∃ r ∈ t, (r'.map fun i => (p'[i]?).map key).Perm (r.map fun i => (p[i]?).map key)) ∧
      (∀ r ∈ t, ∃ r' ∈ t', (r'.map fun i => (p'[i]?).map key).Perm (r.map fun i => (p[i]?).map key)) := by
  obtain ⟨p', t', jx', h, hc, -, -, -⟩ := fixMesh_run key hrk vol hp ht del ori
  exact ⟨p', t', jx', h, hc.verts, hc.fwd, hc.bwd⟩

/-- **C32 (nothing to merge).** If no two input vertices are merged, positions are exact: the
entities returned are, as lists of vertices up to order, exactly the input entities. -/
theorem C32_exact (key : P → κ) {rk : List ℕ → ρ} (hrk : Function.Injective rk)
    (vol : List P → K) {p : List P} (hp : p ≠ []) {t : List (List ℕ)} (ht : InRange p t)
    (hk : ∀ x ∈ p, ∀ y ∈ p, key x = key y → x = y) (del ori : Bool) :
    ∃ p' t' jx', fixMesh key rk vol p t del ori = .ok (p', t', jx') ∧
      (∀ r' ∈ t', ∃ r ∈ t, (r'.map fun i => p'[i]?).Perm (r.map fun i => p[i]?)) ∧
      (∀ r ∈ t, ∃ r' ∈ t', (r'.map fun i => p'[i]?).Perm (r.map fun i => p[i]?)) := by
  obtain ⟨p', t', jx', h, hc, -, -, -⟩ := fixMesh_run key hrk vol hp ht del ori
  classical
  -- a left inverse of `key` on the input vertices
  let inv : Option κ → Option P := fun o =>
    match o with
    | none => none
    | some k => if h : ∃ x ∈ p, key x = k then some h.choose else none
  have hinv : ∀ x ∈ p, inv (some (key x)) = some x := by
    intro x hx
    have hex : ∃ y ∈ p, key y = key x := ⟨x, hx, rfl⟩
    simp only [inv, dif_pos hex]
    exact congrArg some (hk _ hex.choose_spec.1 _ hx hex.choose_spec.2)
  have back : ∀ (q : List P) (r : List ℕ), (∀ x ∈ q, x ∈ p) →
      (rowKeys key q r).map inv = r.map fun i => q[i]? := by
    intro q r hq
    simp only [rowKeys, List.map_map]
    apply List.map_congr_left
    intro i _
    simp only [Function.comp_apply]
    cases hqi : q[i]? with
    | none => rfl
    | some x => exact hinv x (hq x (List.mem_of_getElem? hqi))
  have tr : ∀ r' r, (rowKeys key p' r').Perm (rowKeys key p r) →
      (r'.map fun i => p'[i]?).Perm (r.map fun i => p[i]?) := by
    intro r' r hperm
    have := hperm.map inv
    rwa [back p' r' hc.verts, back p r fun _ h => h] at this
  refine ⟨p', t', jx', h, ?_, ?_⟩
  · intro r' hr'
    obtain ⟨r, hr, hperm⟩ := hc.fwd r' hr'
    exact ⟨r, hr, tr _ _ hperm⟩
  · intro r hr
    obtain ⟨r', hr', hperm⟩ := hc.bwd r hr
    exact ⟨r', hr', tr _ _ hperm⟩

/-- An empty vertex array raises. -/
theorem C31_empty_raises (key : P → κ) (rk : List ℕ → ρ) (vol : List P → K) (t : List (List ℕ))
    (del ori : Bool) : ∃ e, fixMesh key rk vol [] t del ori = .error e := ⟨_, rfl⟩

/-! ### C33: orientation -/

section orient
variable {K : Type} [Field K] [LinearOrder K] [IsStrictOrderedRing K]

theorem vol2_swap (a b c : Fin 2 → K) : vol2 b a c = - vol2 a b c := by unfold vol2; ring

theorem vol3_swap (a b c d : Fin 3 → K) : vol3 b a c d = - vol3 a b c d := by
  simp only [vol3, cross, Matrix.cons_val_zero, Matrix.cons_val_one, Matrix.cons_val]; ring

theorem orient_nonneg {Q : Type} {vol : List Q → K}
    (hv : ∀ vs, vol (swap01 vs) = - vol vs ∨ vol vs = 0) {p : List Q} {r r' : List ℕ} {vs : List Q}
    (h : Np.take p r = .ok vs) (hr : r' = if vol vs < 0 then swap01 r else r) :
    ∃ vs', Np.take p r' = .ok vs' ∧ 0 ≤ vol vs' := by
  by_cases hn : vol vs < 0
  · rw [if_pos hn] at hr
    refine ⟨swap01 vs, ?_, ?_⟩
    · rw [hr]
      have hs := take_spec.1 h
      apply take_spec.2
      have hll := congrArg List.length hs
      simp only [List.length_map] at hll
      match r, vs, hs, hll with
      | [], [], _, _ => simp [swap01]
      | [a], [x], hs, _ => simpa [swap01] using hs
      | a :: b :: r, x :: y :: vs, hs, _ =>
        simp only [List.map_cons, List.cons.injEq, swap01] at hs ⊢
        exact ⟨hs.2.1, hs.1, hs.2.2⟩
    · rcases hv vs with h1 | h1
      · rw [h1]; linarith
      · rw [h1] at hn; exact absurd hn (lt_irrefl _)
  · rw [if_neg hn] at hr
    exact ⟨vs, hr ▸ h, not_lt.1 hn⟩

theorem rowVol2_swap (vs : List (Fin 2 → K)) :
    rowVol2 (swap01 vs) = - rowVol2 vs ∨ rowVol2 vs = 0 := by
  match vs with
  | [a, b, c] => exact Or.inl (vol2_swap a b c)
  | [] => exact Or.inr rfl
  | [_] => exact Or.inr rfl
  | [_, _] => exact Or.inr rfl
  | _ :: _ :: _ :: _ :: _ => exact Or.inr rfl

theorem rowVol3_swap (vs : List (Fin 3 → K)) :
    rowVol3 (swap01 vs) = - rowVol3 vs ∨ rowVol3 vs = 0 := by
  match vs with
  | [a, b, c, d] => exact Or.inl (vol3_swap a b c d)
  | [] => exact Or.inr rfl
  | [_] => exact Or.inr rfl
  | [_, _] => exact Or.inr rfl
  | [_, _, _] => exact Or.inr rfl
  | _ :: _ :: _ :: _ :: _ :: _ => exact Or.inr rfl

/-- **C33 (2-D).** Every triangle returned has non-negative signed area. -/
theorem C33_oriented2 (key : (Fin 2 → K) → κ) {rk : List ℕ → ρ} (hrk : Function.Injective rk)
    {p : List (Fin 2 → K)} (hp : p ≠ []) {t : List (List ℕ)} (ht : InRange p t)
    (h3 : ∀ r ∈ t, r.length = 3) (del : Bool) :
    ∃ p' t' jx', fixMesh key rk rowVol2 p t del true = .ok (p', t', jx') ∧
      ∀ r' ∈ t', ∃ i j k a b c, r' = [i, j, k] ∧ p'[i]? = some a ∧ p'[j]? = some b ∧
        p'[k]? = some c ∧ 0 ≤ ((b 0 - a 0) * (c 1 - a 1) - (b 1 - a 1) * (c 0 - a 0)) / 2 := by
  obtain ⟨p', t', jx', h, hc, -, ho, -⟩ := fixMesh_run key hrk rowVol2 hp ht del true
  refine ⟨p', t', jx', h, fun r' hr' => ?_⟩
  obtain ⟨r, vs, hvs, hr⟩ := ho rfl r' hr'
  obtain ⟨vs', hvs', hnn⟩ := orient_nonneg rowVol2_swap hvs hr
  obtain ⟨r0, hr0, hperm⟩ := hc.fwd r' hr'
  have hl : r'.length = 3 := by
    have := hperm.length_eq; simp only [rowKeys, List.length_map] at this; rw [this, h3 r0 hr0]
  have hs := take_spec.1 hvs'
  have hl2 := take_length hvs'
  rw [hl] at hl2
  match r', vs', hl, hl2, hs with
  | [i, j, k], [a, b, c], _, _, hs =>
    simp only [List.map_cons, List.map_nil, List.cons.injEq, and_true] at hs
    exact ⟨i, j, k, a, b, c, rfl, hs.1, hs.2.1, hs.2.2, hnn⟩

/-- **C33 (3-D).** Every tetrahedron returned has non-negative signed volume. -/
theorem C33_oriented3 (key : (Fin 3 → K) → κ) {rk : List ℕ → ρ} (hrk : Function.Injective rk)
    {p : List (Fin 3 → K)} (hp : p ≠ []) {t : List (List ℕ)} (ht : InRange p t)
    (h4 : ∀ r ∈ t, r.length = 4) (del : Bool) :
    ∃ p' t' jx', fixMesh key rk rowVol3 p t del true = .ok (p', t', jx') ∧
      ∀ r' ∈ t', ∃ i j k l a b c d, r' = [i, j, k, l] ∧ p'[i]? = some a ∧ p'[j]? = some b ∧
        p'[k]? = some c ∧ p'[l]? = some d ∧ 0 ≤ vol3 a b c d := by
  obtain ⟨p', t', jx', h, hc, -, ho, -⟩ := fixMesh_run key hrk rowVol3 hp ht del true
  refine ⟨p', t', jx', h, fun r' hr' => ?_⟩
  obtain ⟨r, vs, hvs, hr⟩ := ho rfl r' hr'
  obtain ⟨vs', hvs', hnn⟩ := orient_nonneg rowVol3_swap hvs hr
  obtain ⟨r0, hr0, hperm⟩ := hc.fwd r' hr'
  have hl : r'.length = 4 := by
    have := hperm.length_eq; simp only [rowKeys, List.length_map] at this; rw [this, h4 r0 hr0]
  have hs := take_spec.1 hvs'
  have hl2 := take_length hvs'
  rw [hl] at hl2
  match r', vs', hl, hl2, hs with
  | [i, j, k, l], [a, b, c, d], _, _, hs =>
    simp only [List.map_cons, List.map_nil, List.cons.injEq, and_true] at hs
    exact ⟨i, j, k, l, a, b, c, d, rfl, hs.1, hs.2.1, hs.2.2.1, hs.2.2.2, hnn⟩

end orient

/-! ### the snapping grid -/

section snap
variable {K : Type} [Field K] [LinearOrder K] [IsStrictOrderedRing K] [FloorRing K] {d : ℕ}

theorem npRound_close (x : K) : |(npRound x : K) - x| ≤ 1 / 2 := by
  have h1 := Int.floor_le x
  have h2 := Int.lt_floor_add_one x
  unfold npRound
  split_ifs with a b c
  · rw [abs_le]; constructor <;> linarith
  · push_cast; rw [abs_le]; constructor <;> linarith
  · rw [abs_le]; constructor <;> linarith
  · push_cast; rw [abs_le]; constructor <;> linarith

/-- **C31/C32 (snapping).** Merged vertices differ by at most `snap` in every coordinate, so
vertices further apart are never merged; identical vertices always are. -/
theorem C32_snap_close {snap : K} (hs : 0 < snap) {a b : Fin d → K} (h : snapPt snap a = snapPt snap b)
    (i : Fin d) : |a i - b i| ≤ snap := by
  have ha := npRound_close (a i / snap)
  have hb := npRound_close (b i / snap)
  have e : (npRound (a i / snap) : K) = npRound (b i / snap) := by
    have := congrFun h i
    simp only [snapPt] at this
    exact mul_right_cancel₀ hs.ne' this
  rw [e] at ha
  have e2 : |a i / snap - b i / snap| ≤ 1 := by
    have := abs_sub_le (a i / snap) (npRound (b i / snap) : K) (b i / snap)
    rw [abs_sub_comm] at ha
    linarith
  rw [← sub_div, abs_div, abs_of_pos hs, div_le_one hs] at e2
  exact e2

variable {κ ρ : Type} [LinearOrder κ] [LinearOrder ρ]

/-- **C31/C32 for the coordinates.** `fix_mesh` on point coordinates: with `enc` the byte string
of a point, the result is clean, distinct vertices have distinct snapped positions, every input
entity is represented by an entity whose vertices, in some order, are within `snap` of the
vertices of the input entity in every coordinate. -/
theorem C32_coordinates {enc : (Fin d → K) → κ} (henc : Function.Injective enc) {rk : List ℕ → ρ}
    (hrk : Function.Injective rk) (vol : List (Fin d → K) → K) {ptol : K} {p0 : Fin d → K}
    {ps : List (Fin d → K)} (hsnap : 0 < snapLen ptol p0 ps) {t : List (List ℕ)}
    (ht : InRange (p0 :: ps) t) (ori : Bool) :
    ∃ p' t' jx', fixMeshK enc rk vol ptol (p0 :: ps) t true ori = .ok (p', t', jx') ∧
      InRange p' t' ∧ (∀ x ∈ p', x ∈ p0 :: ps) ∧
      ∀ r ∈ t, ∃ r' ∈ t', ∃ s : List ℕ, s.Perm r' ∧
        List.Forall₂ (fun i j => ∃ x y, (p0 :: ps)[i]? = some x ∧ p'[j]? = some y ∧
          ∀ c, |x c - y c| ≤ snapLen ptol p0 ps) r s := by
  obtain ⟨p', t', jx', h, hc, -, -, -⟩ := fixMesh_run
    (fun q => enc (snapPt (snapLen ptol p0 ps) q)) hrk vol (p := p0 :: ps) (by simp) ht true ori
  refine ⟨p', t', jx', h, hc.inRange, hc.verts, fun r hr => ?_⟩
  obtain ⟨r', hr', hperm⟩ := hc.bwd r hr
  refine ⟨r', hr', ?_⟩
  -- reorder r' so that the keys agree entry by entry
  have reorder : ∀ (l : List (Option κ)) (r' : List ℕ) (f : ℕ → Option κ), (r'.map f).Perm l →
      ∃ s : List ℕ, s.Perm r' ∧ s.map f = l := by
    intro l r' f hp
    induction l generalizing r' with
    | nil =>
      have : r' = [] := by simpa using hp
      exact ⟨[], by simp [this], rfl⟩
    | cons k l ih =>
      have hk : k ∈ r'.map f := hp.mem_iff.2 (by simp)
      obtain ⟨j, hj, rfl⟩ := List.mem_map.1 hk
      have hsplit := List.perm_cons_erase hj
      have h2 : ((r'.erase j).map f).Perm l := by
        have := (hsplit.map f).symm.trans hp
        simpa using this
      obtain ⟨s, hs, hsl⟩ := ih _ h2
      exact ⟨j :: s, (hs.cons j).trans hsplit.symm, by simp [hsl]⟩
  obtain ⟨s, hs, hsl⟩ := reorder _ r' _ hperm
  refine ⟨s, hs, ?_⟩
  have hin := ht r hr
  have hin' : ∀ j ∈ s, j < p'.length := fun j hj => hc.inRange r' hr' j (hs.mem_iff.1 hj)
  clear hperm hs hr
  simp only [rowKeys] at hsl
  induction r generalizing s with
  | nil =>
    have : s = [] := by simpa using hsl
    rw [this]; exact List.Forall₂.nil
  | cons i r ih =>
    cases s with
    | nil => simp at hsl
    | cons j s =>
      simp only [List.map_cons, List.cons.injEq] at hsl
      refine List.Forall₂.cons ?_ (ih s hsl.2 (fun i hi => hin i (by simp [hi]))
        fun j hj => hin' j (by simp [hj]))
      have hi := hin i (by simp)
      have hj := hin' j (by simp)
      refine ⟨(p0 :: ps)[i], p'[j], List.getElem?_eq_getElem hi, List.getElem?_eq_getElem hj, ?_⟩
      have hk := hsl.1
      rw [List.getElem?_eq_getElem hi, List.getElem?_eq_getElem hj] at hk
      simp only [Option.map_some, Option.some.injEq] at hk
      intro c
      rw [abs_sub_comm]
      exact C32_snap_close hsnap (henc hk) c

theorem foldl_max_greatest {α : Type} (f : α → K) (l : List α) (a : K) :
    (l.foldl (fun m q => max m (f q)) a = a ∨ ∃ q ∈ l, l.foldl (fun m q => max m (f q)) a = f q) ∧
    a ≤ l.foldl (fun m q => max m (f q)) a ∧ ∀ q ∈ l, f q ≤ l.foldl (fun m q => max m (f q)) a := by
  induction l generalizing a with
  | nil => simp
  | cons x l ih =>
    obtain ⟨h1, h2, h3⟩ := ih (max a (f x))
    simp only [List.foldl_cons]
    refine ⟨?_, (le_max_left _ _).trans h2, ?_⟩
    · rcases h1 with h1 | ⟨q, hq, h1⟩
      · rcases max_choice a (f x) with h | h
        · exact Or.inl (by rw [h1, h])
        · exact Or.inr ⟨x, by simp, by rw [h1, h]⟩
      · exact Or.inr ⟨q, by simp [hq], h1⟩
    · intro q hq
      rcases List.mem_cons.1 hq with rfl | hq
      · exact (le_max_right _ _).trans h2
      · exact h3 q hq

theorem foldl_min_least {α : Type} (f : α → K) (l : List α) (a : K) :
    (l.foldl (fun m q => min m (f q)) a = a ∨ ∃ q ∈ l, l.foldl (fun m q => min m (f q)) a = f q) ∧
    l.foldl (fun m q => min m (f q)) a ≤ a ∧ ∀ q ∈ l, l.foldl (fun m q => min m (f q)) a ≤ f q := by
  induction l generalizing a with
  | nil => simp
  | cons x l ih =>
    obtain ⟨h1, h2, h3⟩ := ih (min a (f x))
    simp only [List.foldl_cons]
    refine ⟨?_, h2.trans (min_le_left _ _), ?_⟩
    · rcases h1 with h1 | ⟨q, hq, h1⟩
      · rcases min_choice a (f x) with h | h
        · exact Or.inl (by rw [h1, h])
        · exact Or.inr ⟨x, by simp, by rw [h1, h]⟩
      · exact Or.inr ⟨q, by simp [hq], h1⟩
    · intro q hq
      rcases List.mem_cons.1 hq with rfl | hq
      · exact h2.trans (min_le_right _ _)
      · exact h3 q hq

/-- **C32 (tolerance).** The tolerance used in `C32_coordinates` is `ptol` times the largest extent of the points: the greatest difference
between the coordinates of two of them, in any direction. -/
theorem C32_tolerance (hd : 0 < d) (ptol : K) (p0 : Fin d → K) (ps : List (Fin d → K)) :
    ∃ L, IsGreatest {e | ∃ x ∈ p0 :: ps, ∃ y ∈ p0 :: ps, ∃ i, e = |x i - y i|} L ∧ snapLen ptol p0 ps = ptol * L := by
  have hmax : ∀ i, (∃ x ∈ p0 :: ps, colMax p0 ps i = x i) ∧ ∀ x ∈ p0 :: ps, x i ≤ colMax p0 ps i := by
    intro i
    obtain ⟨h1, h2, h3⟩ := foldl_max_greatest (fun q : Fin d → K => q i) ps (p0 i)
    refine ⟨?_, ?_⟩
    · rcases h1 with h1 | ⟨q, hq, h1⟩
      · exact ⟨p0, by simp, h1⟩
      · exact ⟨q, by simp [hq], h1⟩
    · intro x hx
      rcases List.mem_cons.1 hx with rfl | hx
      · exact h2
      · exact h3 x hx
  have hmin : ∀ i, (∃ x ∈ p0 :: ps, colMin p0 ps i = x i) ∧ ∀ x ∈ p0 :: ps, colMin p0 ps i ≤ x i := by
    intro i
    obtain ⟨h1, h2, h3⟩ := foldl_min_least (fun q : Fin d → K => q i) ps (p0 i)
    refine ⟨?_, ?_⟩
    · rcases h1 with h1 | ⟨q, hq, h1⟩
      · exact ⟨p0, by simp, h1⟩
      · exact ⟨q, by simp [hq], h1⟩
    · intro x hx
      rcases List.mem_cons.1 hx with rfl | hx
      · exact h2
      · exact h3 x hx
  obtain ⟨h1, h2, h3⟩ := foldl_max_greatest (id : K → K) (List.ofFn fun i => colMax p0 ps i - colMin p0 ps i) 0
  set M := (List.ofFn fun i => colMax p0 ps i - colMin p0 ps i).foldl (fun m q => max m (id q)) 0 with hM
  have hle : ∀ x ∈ p0 :: ps, ∀ y ∈ p0 :: ps, ∀ i, |x i - y i| ≤ M := by
    intro x hx y hy i
    have := h3 (colMax p0 ps i - colMin p0 ps i) (by rw [List.mem_ofFn]; exact ⟨i, rfl⟩)
    simp only [id] at this
    have a1 := (hmax i).2 x hx
    have a2 := (hmax i).2 y hy
    have b1 := (hmin i).2 x hx
    have b2 := (hmin i).2 y hy
    rw [abs_le]
    constructor <;> linarith
  refine ⟨M, ⟨?_, ?_⟩, mul_comm _ _⟩
  · rcases h1 with h1 | ⟨q, hq, h1⟩
    · exact ⟨p0, by simp, p0, by simp, ⟨0, hd⟩, by simp [h1]⟩
    · rw [List.mem_ofFn] at hq
      obtain ⟨i, rfl⟩ := hq
      obtain ⟨x, hx, ex⟩ := (hmax i).1
      obtain ⟨y, hy, ey⟩ := (hmin i).1
      refine ⟨x, hx, y, hy, i, ?_⟩
      rw [h1, id, ex, ey, abs_of_nonneg]
      rw [← ex, ← ey]
      exact sub_nonneg.2 (((hmin i).2 x hx).trans ((hmax i).2 x hx))
  · rintro e ⟨x, hx, y, hy, i, rfl⟩
    exact hle x hx y hy i

/-- Concrete case. -/
example : snapLen (1 / 100 : ℚ) ![100, 0] [![101, 3], ![100, 1]] = 1 / 100 * 3 := by
  decide +kernel

end snap

/-! ### concrete cases -/

/-- Two triangles sharing an edge given with duplicated vertices (3 = 1, 4 = 2), one duplicate
triangle, one unused vertex and clockwise orientation. -/
def exP : List (Fin 2 → ℚ) := [![0, 0], ![1, 0], ![0, 1], ![1, 0], ![0, 1], ![1, 1], ![9, 9]]
def exT : List (List ℕ) := [[0, 2, 1], [3, 4, 5], [1, 0, 4]]

example : exP ≠ [] ∧ InRange exP exT ∧ (∀ r ∈ exT, r.length = 3) := by
  refine ⟨by simp [exP], ?_, ?_⟩
  · unfold InRange; decide
  · decide

/-- An injective encoding into a linear order: coordinates in lexicographic order. -/
def lexKey (q : Fin 2 → ℚ) : List ℚ := [q 0, q 1]

example : Function.Injective lexKey := by
  intro a b h
  simp only [lexKey, List.cons.injEq, and_true] at h
  funext i
  match i with
  | 0 => exact h.1
  | 1 => exact h.2

/-- The model run on it (a test, not a proof): 4 vertices, 2 triangles, both counter-clockwise. -/
example : (fixMeshK lexKey id rowVol2 (1 / 1000) exP exT true true).toOption.map
      (fun x => (x.1.map lexKey, x.2.1)) =
    some ([[0, 0], [0, 1], [1, 0], [1, 1]], [[1, 0, 2], [1, 2, 3]]) := by decide +kernel

end SM.FixMesh
