import Verif.Props.FixTwice
import Verif.Props.Forces
import Verif.Props.MeshLoop
import Verif.Props.CleanupSmooth
import Verif.Props.Generate

/-!
# C125: the order of the points does not matter

Two runs of the meshing loop whose points are listed in different orders, with triangulations that are the same except for the numbering, end with the same
mesh, entry by entry. mesh_generator.py:460-529, on one process, exact arithmetic.
-/

namespace SM.MeshLoop

open Np Topology FixMesh

noncomputable section

variable {d : ℕ} {κ ρ : Type} [LinearOrder κ] [LinearOrder ρ]

/-! ### Renaming -/

/-- `σ` renames the positions below `n`. -/
structure Renames (σ : ℕ → ℕ) (n : ℕ) : Prop where
  lt : ∀ i < n, σ i < n
  inj : ∀ i < n, ∀ j < n, σ i = σ j → i = j

/-- Entry `i` of the first list is entry `σ i` of the second. -/
def Moved {α : Type} (σ : ℕ → ℕ) (a a' : List α) : Prop := a'.length = a.length ∧ ∀ i < a.length, a'[σ i]? = a[i]?

theorem Renames.perm {σ : ℕ → ℕ} {n : ℕ} (h : Renames σ n) : ((List.range n).map σ).Perm (List.range n) := by
  refine List.Subperm.perm_of_length_le (List.subperm_of_subset ?_ ?_) (by simp)
  · refine (List.nodup_map_iff_inj_on List.nodup_range).2 ?_
    intro i hi j hj e
    exact h.inj i (List.mem_range.1 hi) j (List.mem_range.1 hj) e
  · intro x hx
    obtain ⟨i, hi, rfl⟩ := List.mem_map.1 hx
    exact List.mem_range.2 (h.lt i (List.mem_range.1 hi))

theorem Moved.perm {α : Type} {σ : ℕ → ℕ} {a a' : List α} (hm : Moved σ a a') (hσ : Renames σ a.length) : a'.Perm a := by
  have h1 : (List.range a.length).map (fun i => a'[σ i]?) = a.map some := by
    apply List.ext_getElem?
    intro i
    by_cases hi : i < a.length
    · simp [hi, hm.2 i hi]
    · simp [hi]
  have h2 : ((List.range a.length).map σ).map (fun i => a'[i]?) = a.map some := by rw [List.map_map]; exact h1
  have h3 : (List.range a.length).map (fun i => a'[i]?) = a'.map some := by
    apply List.ext_getElem?
    intro i
    by_cases hi : i < a.length
    · have : i < a'.length := by rw [hm.1]; exact hi
      simp [hi, this]
    · have : ¬ i < a'.length := by rw [hm.1]; exact hi
      simp [hi, this]
  have := hσ.perm.map fun i => a'[i]?
  rw [h2, h3] at this
  exact ((List.map_perm_map_iff (Option.some_injective α)).1 this).symm

theorem renames_of_same {P : Type} {σ : ℕ → ℕ} {p p' : List P} {t t' : List (List ℕ)} (hnd : p.Nodup) (h : SameMesh σ p t p' t') : Renames σ p.length := by
  constructor
  · intro i hi
    have := h.place i hi
    rw [List.getElem?_eq_getElem hi] at this
    have := (List.getElem?_eq_some_iff.1 this).1
    rwa [h.vertices.length_eq] at this
  · intro i hi j hj e
    have h1 := h.place i hi
    have h2 := h.place j hj
    rw [e, h2, List.getElem?_eq_getElem hi, List.getElem?_eq_getElem hj] at h1
    exact ((List.Nodup.getElem_inj_iff hnd).1 (Option.some.inj h1)).symm

theorem Moved.of_same {P : Type} {σ : ℕ → ℕ} {p p' : List P} {t t' : List (List ℕ)} (h : SameMesh σ p t p' t') : Moved σ p p' :=
  ⟨h.vertices.length_eq, h.place⟩

/-! ### Removing outside cells -/

theorem centroid_perm {vs vs' : List (Fin d → ℝ)} (h : vs'.Perm vs) : Project.centroid vs' = Project.centroid vs := by
  funext k
  simp only [Project.centroid]
  rw [(h.map fun v => v k).sum_eq]

theorem take_map_eq {P : Type} {σ : ℕ → ℕ} {p p' : List P} (h : ∀ i < p.length, p'[σ i]? = p[i]?) {r : List ℕ} (hr : ∀ i ∈ r, i < p.length) :
    Np.take p' (r.map σ) = Np.take p r := by
  obtain ⟨vs, hvs⟩ := take_ok hr
  rw [hvs, take_spec, ← take_spec.1 hvs, List.map_map]
  exact List.map_congr_left fun i hi => h i (hr i hi)

theorem take_perm {P : Type} {p : List P} {r r' : List ℕ} (h : r'.Perm r) {vs : List P} (hvs : Np.take p r = .ok vs) :
    ∃ vs', Np.take p r' = .ok vs' ∧ vs'.Perm vs := by
  have hr : ∀ i ∈ r, i < p.length := by
    intro i hi
    have := take_spec.1 hvs
    have hm : p[i]? ∈ vs.map some := by rw [← this]; exact List.mem_map.2 ⟨i, hi, rfl⟩
    obtain ⟨v, -, e⟩ := List.mem_map.1 hm
    exact (List.getElem?_eq_some_iff.1 e.symm).1
  obtain ⟨vs', h'⟩ := take_ok (a := p) (ix := r') fun i hi => hr i (h.mem_iff.1 hi)
  refine ⟨vs', h', ?_⟩
  have := h.map fun i => p[i]?
  rw [take_spec.1 hvs, take_spec.1 h'] at this
  exact (List.map_perm_map_iff (Option.some_injective P)).1 this

theorem _root_.SM.FixMesh.SameMesh.inRange {P : Type} {σ : ℕ → ℕ} {p p' : List P} {t t' : List (List ℕ)} (h : SameMesh σ p t p' t') (ht : InRange p t) : InRange p' t' := by
  intro r' hr' j hj
  obtain ⟨r, hr, hperm⟩ := h.back r' hr'
  obtain ⟨i, hi, rfl⟩ := List.mem_map.1 (hperm.mem_iff.1 hj)
  have hi' := ht r hr i hi
  have := h.place i hi'
  rw [List.getElem?_eq_getElem hi'] at this
  exact (List.getElem?_eq_some_iff.1 this).1

theorem removeOutside_same {fd : (Fin d → ℝ) → ℝ} {g : ℝ} {σ : ℕ → ℕ} {p p' : List (Fin d → ℝ)} {t t' : List (List ℕ)} (ht : InRange p t)
    (h : SameMesh σ p t p' t') :
    ∃ u u', Project.removeOutside fd g p t = .ok u ∧ Project.removeOutside fd g p' t' = .ok u' ∧ SameMesh σ p u p' u' ∧ (∀ r ∈ u, r ∈ t) := by
  have ht' := h.inRange ht
  obtain ⟨u, hu⟩ := removeOutside_ok (fd := fd) (g := g) ht
  obtain ⟨u', hu'⟩ := removeOutside_ok (fd := fd) (g := g) ht'
  have s := removeOutside_spec hu
  have s' := removeOutside_spec hu'
  have cen : ∀ {vs vs' : List (Fin d → ℝ)}, vs'.Perm vs → (fun k => (vs'.map fun v => v k).sum / ((d : ℝ) + 1)) =
      (fun k => (vs.map fun v => v k).sum / ((d : ℝ) + 1) : Fin d → ℝ) := fun h => centroid_perm h
  refine ⟨u, u', hu, hu', ⟨h.vertices, h.place, ?_, ?_⟩, fun r hr => ((s r).1 hr).1⟩
  · intro r hr
    obtain ⟨hrt, vs, hvs, hf⟩ := (s r).1 hr
    obtain ⟨r', hr', hperm⟩ := h.cells r hrt
    have hvs' : Np.take p' (r.map σ) = .ok vs := by rw [take_map_eq h.place (ht r hrt)]; exact hvs
    obtain ⟨ws, hws, hp⟩ := take_perm hperm hvs'
    exact ⟨r', (s' r').2 ⟨hr', ws, hws, by rw [cen hp]; exact hf⟩, hperm⟩
  · intro r' hr'
    obtain ⟨hrt', ws, hws, hf⟩ := (s' r').1 hr'
    obtain ⟨r, hr, hperm⟩ := h.back r' hrt'
    obtain ⟨vs, hvs, hp⟩ := take_perm hperm.symm hws
    rw [take_map_eq h.place (ht r hr)] at hvs
    exact ⟨r, (s r).2 ⟨hr, vs, hvs, by rw [cen hp]; exact hf⟩, hperm⟩

/-! ### Forces -/

open Forces

theorem pos_moved {σ : ℕ → ℕ} {p p' : List (Fin d → ℝ)} (h : Moved σ p p') {i : ℕ} (hi : i < p.length) : pos p' (σ i) = pos p i := by
  unfold pos
  rw [List.getD_eq_getElem?_getD, List.getD_eq_getElem?_getD, h.2 i hi]

theorem bars_ok (hd : d = 2 ∨ d = 3) {t : List (List ℕ)} (ht : Simplices (d + 1) t) :
    ∃ es, getBars t (d + 1) = .ok es ∧ (∀ a b, (a, b) ∈ es ↔ a < b ∧ ∃ r ∈ t, a ∈ r ∧ b ∈ r) ∧ es.Nodup := by
  rcases hd with rfl | rfl
  · obtain ⟨es, h1, h2, h3⟩ := C34_bars2 ht
    exact ⟨es, h1, h2, nodup_of_lex h3⟩
  · obtain ⟨es, h1, h2, h3⟩ := C34_bars3 ht
    exact ⟨es, h1, h2, nodup_of_lex h3⟩

/-- The renamed bar. -/
def renBar (σ : ℕ → ℕ) (e : ℕ × ℕ) : ℕ × ℕ := (min (σ e.1) (σ e.2), max (σ e.1) (σ e.2))

theorem bars_same {σ : ℕ → ℕ} {n : ℕ} (hσ : Renames σ n) {t t' : List (List ℕ)} (hr : ∀ r ∈ t, ∀ i ∈ r, i < n)
    (hc : ∀ r ∈ t, ∃ r' ∈ t', r'.Perm (r.map σ)) (hb : ∀ r' ∈ t', ∃ r ∈ t, r'.Perm (r.map σ)) {es es' : List (ℕ × ℕ)}
    (h1 : ∀ a b, (a, b) ∈ es ↔ a < b ∧ ∃ r ∈ t, a ∈ r ∧ b ∈ r) (h2 : ∀ a b, (a, b) ∈ es' ↔ a < b ∧ ∃ r ∈ t', a ∈ r ∧ b ∈ r)
    (n1 : es.Nodup) (n2 : es'.Nodup) : es'.Perm (es.map (renBar σ)) := by
  have lt : ∀ {a b}, (a, b) ∈ es → a < n ∧ b < n ∧ a < b := by
    intro a b h
    obtain ⟨hab, r, hrt, ha, hb⟩ := (h1 a b).1 h
    exact ⟨hr r hrt a ha, hr r hrt b hb, hab⟩
  have nd : (es.map (renBar σ)).Nodup := by
    refine (List.nodup_map_iff_inj_on n1).2 ?_
    rintro ⟨a, b⟩ h ⟨a', b'⟩ h' e
    obtain ⟨ha, hb, hab⟩ := lt h
    obtain ⟨ha', hb', hab'⟩ := lt h'
    simp only [renBar, Prod.mk.injEq] at e
    have key : (σ a = σ a' ∧ σ b = σ b') ∨ (σ a = σ b' ∧ σ b = σ a') := by omega
    rcases key with ⟨e1, e2⟩ | ⟨e1, e2⟩
    · rw [hσ.inj a ha a' ha' e1, hσ.inj b hb b' hb' e2]
    · have := hσ.inj a ha b' hb' e1
      have := hσ.inj b hb a' ha' e2
      omega
  rw [List.perm_ext_iff_of_nodup n2 nd]
  rintro ⟨a', b'⟩
  rw [h2, List.mem_map]
  constructor
  · rintro ⟨hlt, r', hr', ha, hb'⟩
    obtain ⟨r, hrt, hp⟩ := hb r' hr'
    obtain ⟨a, ha', rfl⟩ := List.mem_map.1 (hp.mem_iff.1 ha)
    obtain ⟨b, hb'', rfl⟩ := List.mem_map.1 (hp.mem_iff.1 hb')
    rcases lt_trichotomy a b with hab | hab | hab
    · exact ⟨(a, b), (h1 a b).2 ⟨hab, r, hrt, ha', hb''⟩, by simp [renBar]; omega⟩
    · subst hab; exact absurd hlt (lt_irrefl _)
    · exact ⟨(b, a), (h1 b a).2 ⟨hab, r, hrt, hb'', ha'⟩, by simp [renBar]; omega⟩
  · rintro ⟨⟨a, b⟩, h, e⟩
    simp only [renBar, Prod.mk.injEq] at e
    obtain ⟨ha, hb', hab⟩ := lt h
    obtain ⟨-, r, hrt, har, hbr⟩ := (h1 a b).1 h
    obtain ⟨r', hr', hp⟩ := hc r hrt
    have ma := hp.mem_iff.2 (List.mem_map_of_mem (f := σ) har)
    have mb := hp.mem_iff.2 (List.mem_map_of_mem (f := σ) hbr)
    have hne : σ a ≠ σ b := fun e => by have := hσ.inj a ha b hb' e; omega
    refine ⟨by omega, r', hr', ?_, ?_⟩
    · rw [← e.1]; rcases min_choice (σ a) (σ b) with h | h <;> rw [h] <;> assumption
    · rw [← e.2]; rcases max_choice (σ a) (σ b) with h | h <;> rw [h] <;> assumption

/-- **Forces.** The force on a vertex does not depend on the numbering. -/
theorem forces_same (hd : d = 2 ∨ d = 3) (eps : ℝ) (fh : (Fin d → ℝ) → ℝ) (m : ℝ) {σ : ℕ → ℕ} {p p' : List (Fin d → ℝ)} {t t' : List (List ℕ)}
    (hσ : Renames σ p.length) (ht : InRange p t) (hs : Simplices (d + 1) t) (hs' : Simplices (d + 1) t') (h : SameMesh σ p t p' t') :
    ∃ F F', computeForces eps p t fh m = .ok F ∧ computeForces eps p' t' fh m = .ok F' ∧ F.length = p.length ∧ Moved σ F F' := by
  obtain ⟨es, e1, e2, e3⟩ := bars_ok hd hs
  obtain ⟨es', f1, f2, f3⟩ := bars_ok hd hs'
  have hperm := bars_same hσ ht h.cells h.back e2 f2 e3 f3
  have hmv := Moved.of_same h
  have ht' := h.inRange ht
  have hin : ∀ e ∈ es, e.1 < p.length ∧ e.2 < p.length := by
    rintro ⟨a, b⟩ h
    obtain ⟨-, r, hrt, ha, hb⟩ := (e2 a b).1 h
    exact ⟨ht r hrt a ha, ht r hrt b hb⟩
  have hin' : ∀ e ∈ es', e.1 < p'.length ∧ e.2 < p'.length := by
    rintro ⟨a, b⟩ h
    obtain ⟨-, r, hrt, ha, hb⟩ := (f2 a b).1 h
    exact ⟨ht' r hrt a ha, ht' r hrt b hb⟩
  set bars : List (Bar d) := es.map fun e => (e, pos p e.1, pos p e.2) with hbars
  set bars' : List (Bar d) := es'.map fun e => (e, pos p' e.1, pos p' e.2) with hbars'
  -- sums over the bars
  have sums : ∀ {M : Type} [AddCommMonoid M] (g g' : Bar d → M),
      (∀ a b, a < p.length → b < p.length → a < b → σ a ≠ σ b → g' ((min (σ a) (σ b), max (σ a) (σ b)), pos p' (min (σ a) (σ b)), pos p' (max (σ a) (σ b))) =
        g ((a, b), pos p a, pos p b)) → (bars'.map g').sum = (bars.map g).sum := by
    intro M _ g g' hg
    rw [hbars, hbars', List.map_map, List.map_map, (hperm.map _).sum_eq, List.map_map]
    congr 1
    apply List.map_congr_left
    rintro ⟨a, b⟩ hab
    obtain ⟨ha, hb⟩ := hin _ hab
    have hlt := ((e2 a b).1 hab).1
    exact hg a b ha hb hlt fun e => by have := hσ.inj a ha b hb e; omega
  have ends : ∀ {a b : ℕ}, a < p.length → b < p.length → σ a ≠ σ b →
      (min (σ a) (σ b) = σ a ∧ max (σ a) (σ b) = σ b) ∨ (min (σ a) (σ b) = σ b ∧ max (σ a) (σ b) = σ a) := by
    intro a b _ _ _; omega
  have hscale : scale eps fh bars' = scale eps fh bars := by
    unfold scale
    rw [sums (fun x => barLen eps x ^ d) (fun x => barLen eps x ^ d) ?_, sums (fun x => hEdge fh x ^ d) (fun x => hEdge fh x ^ d) ?_]
    · intro a b ha hb _ hne
      rcases ends ha hb hne with ⟨h1, h2⟩ | ⟨h1, h2⟩
      · simp only [h1, h2, hEdge, pos_moved hmv ha, pos_moved hmv hb]
      · simp only [h1, h2, hEdge, pos_moved hmv ha, pos_moved hmv hb, add_comm]
    · intro a b ha hb _ hne
      rcases ends ha hb hne with ⟨h1, h2⟩ | ⟨h1, h2⟩
      · simp only [h1, h2, barLen_eq, pos_moved hmv ha, pos_moved hmv hb]
      · simp only [h1, h2, barLen_eq, pos_moved hmv ha, pos_moved hmv hb]
        rw [len_comm]
  set s := scale eps fh bars with hs0
  have hrun : computeForces eps p t fh m = .ok (dense p.length (bars.flatMap (triples eps fh m s))) := by
    simp [computeForces, e1, bars_run hin, bind, Except.bind, pure, Except.pure, ← hbars, ← hs0]
  have hrun' : computeForces eps p' t' fh m = .ok (dense p'.length (bars'.flatMap (triples eps fh m s))) := by
    simp [computeForces, f1, bars_run hin', bind, Except.bind, pure, Except.pure, ← hbars', ← hscale]
  refine ⟨_, _, hrun, hrun', by simp [dense], by simp [dense, hmv.1], ?_⟩
  intro i hi
  have hi : i < p.length := by simpa [dense] using hi
  have hi' : σ i < p'.length := by rw [hmv.1]; exact hσ.lt i hi
  simp only [dense, List.getElem?_map, List.getElem?_range hi, List.getElem?_range hi', Option.map_some, Option.some.injEq]
  funext k
  rw [cooEntry_triples, cooEntry_triples]
  apply sums
  intro a b ha hb hlt hne
  have ia : (σ a = σ i) ↔ (a = i) := ⟨hσ.inj a ha i hi, fun e => by rw [e]⟩
  have ib : (σ b = σ i) ↔ (b = i) := ⟨hσ.inj b hb i hi, fun e => by rw [e]⟩
  rcases ends ha hb hne with ⟨h1, h2⟩ | ⟨h1, h2⟩
  · simp only [h1, h2, forceVec_eq, pos_moved hmv ha, pos_moved hmv hb, ia, ib]
  · simp only [h1, h2, forceVec_eq, pos_moved hmv ha, pos_moved hmv hb, ia, ib]
    rw [push_comm _ _ (pos p a) (pos p b), mid_comm (pos p b) (pos p a)]
    simp only [Pi.neg_apply, neg_neg]
    rw [add_comm]

/-! ### Fixed points -/

/-- `x` is the only vertex closest to `f`. -/
def OnlyClosest (p : List (Fin d → ℝ)) (f x : Fin d → ℝ) : Prop := x ∈ p ∧ ∀ y ∈ p, y ≠ x → ∑ k, (x k - f k) ^ 2 < ∑ k, (y k - f k) ^ 2

theorem closestNode_only {p : List (Fin d → ℝ)} {f x : Fin d → ℝ} (h : OnlyClosest p f x) : ∃ i, closestNode p f = .ok i ∧ i < p.length ∧ p[i]? = some x := by
  have hn : 0 < p.length := List.length_pos_of_mem h.1
  obtain ⟨j, hj, hc⟩ := Laplace.closest_ok hn f fun i : Fin p.length => p.get i
  refine ⟨j.1, hj, j.2, ?_⟩
  rw [List.getElem?_eq_getElem j.2]
  congr 1
  by_contra hne
  obtain ⟨m, hm, e⟩ := List.getElem_of_mem h.1
  have h1 := h.2 p[j.1] (List.getElem_mem j.2) hne
  have h2 := hc ⟨m, hm⟩
  simp only [List.get_eq_getElem, e] at h2
  exact absurd h1 (not_lt.2 h2)

theorem ifix_same {σ : ℕ → ℕ} {p p' : List (Fin d → ℝ)} (hnd : p.Nodup) (hp : p'.Perm p) (hm : Moved σ p p') (hσ : Renames σ p.length)
    {pfix : List (Fin d → ℝ)} (hf : ∀ f ∈ pfix, ∃ x, OnlyClosest p f x) :
    ∃ ix, pfix.mapM (closestNode p) = .ok ix ∧ pfix.mapM (closestNode p') = .ok (ix.map σ) ∧ ∀ i ∈ ix, i < p.length := by
  induction pfix with
  | nil => exact ⟨[], rfl, rfl, by simp⟩
  | cons f fs ih =>
    obtain ⟨ix, h1, h2, h3⟩ := ih fun g hg => hf g (by simp [hg])
    obtain ⟨x, hx⟩ := hf f (by simp)
    obtain ⟨i, e1, e2, e3⟩ := closestNode_only hx
    have hx' : OnlyClosest p' f x := ⟨hp.mem_iff.2 hx.1, fun y hy => hx.2 y (hp.mem_iff.1 hy)⟩
    obtain ⟨i', f1, f2, f3⟩ := closestNode_only hx'
    have hi : i' = σ i := by
      have hl := hσ.lt i e2
      have h4 : p'[σ i]? = some x := by rw [hm.2 i e2]; exact e3
      have hnd' : p'.Nodup := hp.nodup_iff.2 hnd
      have hl' : σ i < p'.length := by rw [hm.1]; exact hl
      rw [List.getElem?_eq_getElem f2] at f3
      rw [List.getElem?_eq_getElem hl'] at h4
      exact (List.Nodup.getElem_inj_iff hnd').1 (Option.some.inj (f3.trans h4.symm))
    refine ⟨i :: ix, ?_, ?_, ?_⟩
    · simp only [List.mapM_cons, e1, h1, bind, Except.bind, pure, Except.pure]
    · simp only [List.mapM_cons, f1, h2, bind, Except.bind, pure, Except.pure, hi, List.map_cons]
    · intro j hj
      rcases List.mem_cons.1 hj with rfl | hj
      · exact e2
      · exact h3 j hj

/-! ### One pass -/

theorem zeroAt_get (ix : List ℕ) (F : List (Fin d → ℝ)) (i : ℕ) : (zeroAt ix F)[i]? = (F[i]?).map fun f => if i ∈ ix then 0 else f := by
  unfold zeroAt
  rw [List.getElem?_map, List.getElem?_zipIdx]
  cases F[i]? <;> simp

theorem zeroAt_same {σ : ℕ → ℕ} {F F' : List (Fin d → ℝ)} (hσ : Renames σ F.length) (hm : Moved σ F F') {ix : List ℕ} (hix : ∀ i ∈ ix, i < F.length) :
    Moved σ (zeroAt ix F) (zeroAt (ix.map σ) F') := by
  refine ⟨by simp [zeroAt, hm.1], fun i hi => ?_⟩
  have hi : i < F.length := by simpa [zeroAt] using hi
  rw [zeroAt_get, zeroAt_get, hm.2 i hi]
  have : σ i ∈ ix.map σ ↔ i ∈ ix := by
    constructor
    · intro h
      obtain ⟨j, hj, e⟩ := List.mem_map.1 h
      rwa [← hσ.inj j (hix j hj) i hi e]
    · exact fun h => List.mem_map_of_mem h
  simp only [this]

theorem advance_same {σ : ℕ → ℕ} {p p' F F' : List (Fin d → ℝ)} (dt : ℝ) (hl : F.length = p.length) (hp : Moved σ p p') (hF : Moved σ F F') :
    Moved σ (advance dt p F) (advance dt p' F') := by
  refine ⟨by simp [advance, hp.1, hF.1], fun i hi => ?_⟩
  have hi : i < p.length := by simpa [advance, hl] using hi
  have hi' : i < F.length := by rw [hl]; exact hi
  simp only [advance, List.getElem?_zipWith, hp.2 i hi, hF.2 i hi']

theorem map_same {α β : Type} {σ : ℕ → ℕ} {a a' : List α} (f : α → β) (h : Moved σ a a') : Moved σ (a.map f) (a'.map f) := by
  refine ⟨by simp [h.1], fun i hi => ?_⟩
  rw [List.getElem?_map, List.getElem?_map, h.2 i (by simpa using hi)]

theorem projectAll_same {σ : ℕ → ℕ} (deps h0 : ℝ) (ls : List ((Fin d → ℝ) → ℝ)) : ∀ (idx : ℕ) {p p' : List (Fin d → ℝ)}, Moved σ p p' →
    Moved σ (projectAll deps h0 idx ls p) (projectAll deps h0 idx ls p') := by
  induction ls with
  | nil => intro idx p p' h; exact h
  | cons l ls ih => intro idx p p' h; exact ih (idx + 1) (map_same _ h)

theorem projectAll_length (deps h0 : ℝ) (ls : List ((Fin d → ℝ) → ℝ)) : ∀ (idx : ℕ) (p : List (Fin d → ℝ)), (projectAll deps h0 idx ls p).length = p.length := by
  induction ls with
  | nil => intro idx p; rfl
  | cons l ls ih => intro idx p; rw [projectAll, ih]; simp [Project.projectBack]

/-- Same result up to the order of the points, or the same exception. -/
def SameMove : Except String (List (Fin d → ℝ)) → Except String (List (Fin d → ℝ)) → Prop
  | .ok q, .ok q' => q'.Perm q
  | .error e, .error e' => e' = e
  | _, _ => False

theorem move_same (hd : d = 2 ∨ d = 3) {E : Env d κ ρ} {dt' : List (Fin d → ℝ) → List (Fin d → ℝ) × List (List ℕ)} (hsize : E.size = 1)
    {σ : ℕ → ℕ} {p p' : List (Fin d → ℝ)} {t t' : List (List ℕ)} (hσ : Renames σ p.length) (ht : InRange p t) (hs : Simplices (d + 1) t)
    (hs' : Simplices (d + 1) t') (h : SameMesh σ p t p' t') {ix : List ℕ} (hix : ∀ i ∈ ix, i < p.length) (a a' : List ℕ) (b b' : ℕ) :
    SameMove (move E p t ix a b) (move { E with dt := dt' } p' t' (ix.map σ) a' b') := by
  obtain ⟨F, F', h1, h2, h3, h4⟩ := forces_same hd E.eps E.fh (L0multOf d) hσ ht hs hs' h
  have hz := zeroAt_same (h3 ▸ hσ) h4 (ix := ix) (by rw [h3]; exact hix)
  have hzl : (zeroAt ix F).length = p.length := by simp [zeroAt, h3]
  have ha := advance_same E.deltaT hzl (Moved.of_same h) hz
  have hj := projectAll_same E.deps E.h0 (E.fd :: E.subs) 0 ha
  have hal : (advance E.deltaT p (zeroAt ix F)).length = p.length := by simp [advance, hzl]
  have hperm := hj.perm (by rw [projectAll_length, hal]; exact hσ)
  have hzp := hz.perm (by rw [hzl]; exact hσ)
  have hem : (zeroAt (ix.map σ) F').isEmpty = (zeroAt ix F).isEmpty := by
    rw [Bool.eq_iff_iff, List.isEmpty_iff, List.isEmpty_iff]
    constructor
    · intro e; rw [e] at hzp; exact hzp.symm.eq_nil
    · intro e; rw [e] at hzp; exact hzp.eq_nil
  have hmem : (∀ f ∈ zeroAt (ix.map σ) F', E.deltaT * Real.sqrt (∑ k, f k ^ 2) < 1000 * E.h0) ↔
      (∀ f ∈ zeroAt ix F, E.deltaT * Real.sqrt (∑ k, f k ^ 2) < 1000 * E.h0) := by simp only [hzp.mem_iff]
  have hns : ¬ (1 > 1) := by omega
  unfold move
  simp only [h1, h2, bind, Except.bind, pure, Except.pure, hsize, hns, if_false, hem, throw, throwThe, MonadExceptOf.throw]
  by_cases hr : E.rank = 0
  · simp only [hr, if_true]
    by_cases he : (zeroAt ix F).isEmpty = true
    · simp only [he, if_true, SameMove]
    · simp only [he, if_false, Bool.false_eq_true]
      by_cases hm : ∀ f ∈ zeroAt ix F, E.deltaT * Real.sqrt (∑ k, f k ^ 2) < 1000 * E.h0
      · rw [if_pos hm, if_pos (hmem.2 hm)]; exact hperm
      · rw [if_neg hm, if_neg (fun h => hm (hmem.1 h))]; rfl
  · simp only [hr, if_false]; exact hperm

/-- The final clean-up of two meshes that are the same except for the numbering gives the same arrays. -/
theorem fixed_renumbered {T : Tools d κ ρ} (hd : 0 < d) (henc : Function.Injective T.enc) (hrk : Function.Injective T.rk) (hpt : 0 < T.ptol) {σ : ℕ → ℕ}
    {p p' : List (Fin d → ℝ)} {t t' : List (List ℕ)} (ht : InRange p t) (hap : ∀ L, Extent p L → FixMesh.Apart (T.ptol * L) p) (h : SameMesh σ p t p' t') :
    fixed T p t = fixed T p' t' := by
  cases p with
  | nil =>
    have : p' = [] := h.vertices.eq_nil
    subst this
    rfl
  | cons p0 ps =>
    obtain ⟨L, hL, -⟩ := C32_tolerance hd T.ptol p0 ps
    obtain ⟨q, s, jx, jx', h1, h2⟩ := C124_numbering henc hrk T.vol hpt ht hL (hap L hL) h true true
    simp only [fixed, h1, h2, bind, Except.bind, pure, Except.pure]

theorem finish_same {E : Env d κ ρ} {dt' : List (Fin d → ℝ) → List (Fin d → ℝ) × List (List ℕ)} (hd : d = 2 ∨ d = 3) (hsize : E.size = 1)
    (hrank : E.rank = 0) (hpc : d = 2 ∨ E.opts.performChecks = false) (henc : Function.Injective E.tools.enc) (hrk : Function.Injective E.tools.rk)
    (hpt : 0 < E.tools.ptol) {σ : ℕ → ℕ} {p p' : List (Fin d → ℝ)} {t t' : List (List ℕ)} (ht : InRange p t)
    (hap : ∀ L, Extent p L → FixMesh.Apart (E.tools.ptol * L) p) (h : SameMesh σ p t p' t') :
    finish { E with dt := dt' } p' t' = finish E p t := by
  have hf := fixed_renumbered (by omega : 0 < d) henc hrk hpt ht hap h
  have hns : ¬ (1 > 1) := by omega
  have key : termination E.tools E.rank E.size false E.opts p' t' = termination E.tools E.rank E.size false E.opts p t := by
    unfold termination
    simp only [hsize, hrank, hns, decide_false, Bool.false_and, Bool.false_eq_true, if_false, true_and, bind, Except.bind, pure, Except.pure, if_true]
    by_cases h2 : d = 2
    · simp only [h2, if_true, cleanup2, hf]
    · have hc : E.opts.performChecks = false := by rcases hpc with h | h; exacts [absurd h h2, h]
      simp only [h2, if_false, hc, Bool.false_eq_true, hf]
  unfold finish
  simp only [key]

/-! ### The loop -/

/-- The triangulator `dt` of the first run and `dt'` of the second give proper and equal triangulations of the points `a`, in whatever order the second gets
them, and each fixed point has only one closest vertex. -/
structure Generic (E : Env d κ ρ) (dt' : List (Fin d → ℝ) → List (Fin d → ℝ) × List (List ℕ)) (a : List (Fin d → ℝ)) : Prop where
  distinct : (E.dt a).1.Nodup
  inRange : InRange (E.dt a).1 (E.dt a).2
  simplices : Simplices (d + 1) (E.dt a).2
  other : ∀ a', a'.Perm a → Simplices (d + 1) (dt' a').2 ∧ ∃ σ, SameMesh σ (E.dt a).1 (E.dt a).2 (dt' a').1 (dt' a').2
  closest : ∀ f ∈ E.pfix, ∃ x, OnlyClosest (E.dt a).1 f x

/-- Same outcome: the same points in some order while running, the same arrays at the end, or the same exception. -/
def SameOutcome : Outcome d → Outcome d → Prop
  | .running s, .running s' => s'.count = s.count ∧ s'.tri = s.tri ∧ s'.p.Perm s.p
  | .done p t k, .done p' t' k' => p' = p ∧ t' = t ∧ k' = k
  | .raised e, .raised e' => e' = e
  | _, _ => False

theorem step_same (hd : d = 2 ∨ d = 3) {E : Env d κ ρ} {dt' : List (Fin d → ℝ) → List (Fin d → ℝ) × List (List ℕ)} (hsize : E.size = 1)
    (hrank : E.rank = 0) (hpc : d = 2 ∨ E.opts.performChecks = false) (henc : Function.Injective E.tools.enc) (hrk : Function.Injective E.tools.rk)
    (hpt : 0 < E.tools.ptol) {s s' : State d} (hc : s'.count = s.count) (htri : s'.tri = s.tri) (hp : s'.p.Perm s.p) (hg : Generic E dt' s.p)
    (hap : (s.count : ℝ) = E.maxIter - 1 → ∀ L, Extent (E.dt s.p).1 L → FixMesh.Apart (E.tools.ptol * L) (E.dt s.p).1) :
    SameOutcome (step E s) (step { E with dt := dt' } s') := by
  obtain ⟨hs', σ, hσm⟩ := hg.other s'.p hp
  have hσ := renames_of_same hg.distinct hσm
  obtain ⟨ix, h1, h2, h3⟩ := ifix_same hg.distinct hσm.vertices (Moved.of_same hσm) hσ hg.closest
  obtain ⟨u, u', hu, hu', hum, hsub⟩ := removeOutside_same (fd := E.fd) (g := E.geps) hg.inRange hσm
  have hns : ¬ (1 > 1) := by omega
  have ht1 : topology E s = .ok ((E.dt s.p).1, u, ix, [], 0) := by
    simp only [topology, h1, hsize, hns, if_false, bind, Except.bind, pure, Except.pure, hu]
  have ht2 : topology { E with dt := dt' } s' = .ok ((dt' s'.p).1, u', ix.map σ, [], 0) := by
    simp only [topology, h2, hsize, hns, if_false, bind, Except.bind, pure, Except.pure, hu']
  have hir : InRange (E.dt s.p).1 u := fun r hr => hg.inRange r (hsub r hr)
  have hsu : Simplices (d + 1) u := fun r hr => hg.simplices r (hsub r hr)
  have hsu' : Simplices (d + 1) u' := fun r hr => hs' r ((removeOutside_spec hu' r).1 hr).1
  unfold step
  rw [ht1, ht2]
  simp only [hc]
  by_cases hl : (s.count : ℝ) = E.maxIter - 1
  · rw [if_pos hl, if_pos hl, finish_same hd hsize hrank hpc henc hrk hpt hir (hap hl) hum]
    rcases finish E (E.dt s.p).1 u with e | ⟨q, v⟩
    · exact rfl
    · exact ⟨rfl, rfl, by rw [htri]⟩
  · rw [if_neg hl, if_neg hl]
    have hmv := move_same (dt' := dt') hd hsize hσ hir hsu hsu' hum h3 [] [] 0 0
    revert hmv
    rcases move E (E.dt s.p).1 u ix [] 0 with e | q <;> rcases move { E with dt := dt' } (dt' s'.p).1 u' (ix.map σ) [] 0 with e' | q' <;> intro hmv
    · exact hmv
    · exact hmv.elim
    · exact hmv.elim
    · exact ⟨rfl, by simp only [htri], hmv⟩

theorem run_same (hd : d = 2 ∨ d = 3) {E : Env d κ ρ} {dt' : List (Fin d → ℝ) → List (Fin d → ℝ) × List (List ℕ)} (hsize : E.size = 1)
    (hrank : E.rank = 0) (hpc : d = 2 ∨ E.opts.performChecks = false) (henc : Function.Injective E.tools.enc) (hrk : Function.Injective E.tools.rk)
    (hpt : 0 < E.tools.ptol) : ∀ (n : ℕ) {s s' : State d}, s'.count = s.count → s'.tri = s.tri → s'.p.Perm s.p →
    (∀ k u, run E k s = .running u → Generic E dt' u.p) →
    (∀ k u, run E k s = .running u → (u.count : ℝ) = E.maxIter - 1 → ∀ L, Extent (E.dt u.p).1 L → FixMesh.Apart (E.tools.ptol * L) (E.dt u.p).1) →
    SameOutcome (run E n s) (run { E with dt := dt' } n s')
  | 0, s, s', hc, ht, hp, _, _ => ⟨hc, ht, hp⟩
  | n + 1, s, s', hc, ht, hp, hg, ha => by
    have h := step_same hd hsize hrank hpc henc hrk hpt hc ht hp (hg 0 s rfl) (ha 0 s rfl)
    unfold run
    have h1 : ∀ v, step E s = .running v → ∀ k, run E (k + 1) s = run E k v := by intro v hv k; simp [run, hv]
    revert h
    rcases hv : step E s with v | ⟨q, t, k⟩ | e <;> rcases hv' : step { E with dt := dt' } s' with v' | ⟨q', t', k'⟩ | e' <;> intro h
    · refine run_same hd hsize hrank hpc henc hrk hpt n h.1 h.2.1 h.2.2 ?_ ?_
      · intro k u hu; exact hg (k + 1) u (by rw [h1 v hv]; exact hu)
      · intro k u hu; exact ha (k + 1) u (by rw [h1 v hv]; exact hu)
    all_goals first | exact h | exact h.elim

end

end SM.MeshLoop

namespace SM.Generate

open MeshLoop FixMesh

noncomputable section

variable {d : ℕ} {κ ρ : Type} [LinearOrder κ] [LinearOrder ρ]
  {boxEval : List ℝ → (Fin d → ℝ) → ℝ} {domain : Gen.DomainArg (Fin d → ℝ)} {edge : Gen.SizeArg (Fin d → ℝ)}
  {kw : Gen.Kwargs} {R : Rest d κ ρ}

/-- **C125.** Two calls of `generate_mesh` that differ in the order of the user's points only (and possibly in the order in which the triangulator lists its
vertices and cells) end the same way: with the same mesh, entry by entry, or with the same exception; and before the end they have the same points. Assumed, at
each pass of the first call: the triangulation of the points does not depend on their order, has distinct vertices and proper cells, and each fixed point has
one closest vertex; in the last pass no two vertices are within the tolerance of the clean-up. -/
theorem C125_point_order (hd : d = 2 ∨ d = 3) {ps ps' : List (Fin d → ℝ)} (hps : ps'.Perm ps) (hR : R.points = some ps)
    (dt' : List (Fin d → ℝ) → List (Fin d → ℝ) × List (List ℕ)) (hpc : d = 2 ∨ R.opts.performChecks = false)
    (henc : Function.Injective R.tools.enc) (hrk : Function.Injective R.tools.rk) (hpt : 0 < R.tools.ptol)
    (hg : ∀ E, prepare boxEval domain edge kw R = .ok (E, ps) → ∀ k s, generateMesh boxEval domain edge kw R k = .running s → Generic E dt' s.p ∧
      ((s.count : ℝ) = E.maxIter - 1 → ∀ L, Extent (R.dt s.p).1 L → FixMesh.Apart (R.tools.ptol * L) (R.dt s.p).1)) (n : ℕ) :
    SameOutcome (generateMesh boxEval domain edge kw R n) (generateMesh boxEval domain edge kw { R with points := some ps', dt := dt' } n) := by
  cases hprep : prepare boxEval domain edge kw R with
  | error e =>
    have h' : prepare boxEval domain edge kw { R with points := some ps', dt := dt' } = .error e := by
      revert hprep
      simp only [prepare, bind, Except.bind, pure, Except.pure, initial, hR, throw, throwThe, MonadExceptOf.throw]
      have hem : ps'.isEmpty = ps.isEmpty := by rw [Bool.eq_iff_iff, List.isEmpty_iff, List.isEmpty_iff]; exact ⟨fun e => by subst e; exact hps.symm.eq_nil, fun e => by subst e; exact hps.eq_nil⟩
      rw [hem]
      cases Gen.genSetup boxEval domain edge kw with
      | error e => exact id
      | ok S =>
        simp only []
        split
        · exact id
        · cases Gen.maxIterOf kw with
          | error e => exact id
          | ok m =>
            simp only []
            split
            · exact id
            · intro h; exact absurd h (by simp)
    simp only [generateMesh, hprep, h']
    exact rfl
  | ok Ep =>
    obtain ⟨E, p⟩ := Ep
    obtain ⟨S, m, hS, hp, hm, hne, rfl⟩ := prepare_ok hprep
    have hp' : p = ps := by simpa [initial, hR] using hp.symm
    subst hp'
    have h' : prepare boxEval domain edge kw { R with points := some ps', dt := dt' } = .ok ({ envOf R S m with dt := dt' }, ps') := by
      revert hprep
      simp only [prepare, bind, Except.bind, pure, Except.pure, initial, hR, throw, throwThe, MonadExceptOf.throw, hS, hm]
      have hem : ps'.isEmpty = p.isEmpty := by rw [Bool.eq_iff_iff, List.isEmpty_iff, List.isEmpty_iff]; exact ⟨fun e => by subst e; exact hps.symm.eq_nil, fun e => by subst e; exact hps.eq_nil⟩
      rw [hem]
      split
      · intro h; exact absurd h (by simp)
      · split
        · intro h; exact absurd h (by simp)
        · intro _; rfl
    have key := hg _ hprep
    simp only [generateMesh, hprep, h'] at key ⊢
    exact run_same hd rfl rfl hpc henc hrk hpt n rfl rfl hps (fun k u hu => (key k u hu).1) (fun k u hu => (key k u hu).2)

/-- **C125 (the returned mesh).** -/
theorem C125_returned (hd : d = 2 ∨ d = 3) {ps ps' : List (Fin d → ℝ)} (hps : ps'.Perm ps) (hR : R.points = some ps)
    (dt' : List (Fin d → ℝ) → List (Fin d → ℝ) × List (List ℕ)) (hpc : d = 2 ∨ R.opts.performChecks = false)
    (henc : Function.Injective R.tools.enc) (hrk : Function.Injective R.tools.rk) (hpt : 0 < R.tools.ptol)
    (hg : ∀ E, prepare boxEval domain edge kw R = .ok (E, ps) → ∀ k s, generateMesh boxEval domain edge kw R k = .running s → Generic E dt' s.p ∧
      ((s.count : ℝ) = E.maxIter - 1 → ∀ L, Extent (R.dt s.p).1 L → FixMesh.Apart (R.tools.ptol * L) (R.dt s.p).1)) {n : ℕ} {q : List (Fin d → ℝ)}
    {t : List (List ℕ)} {k : ℕ} (h : generateMesh boxEval domain edge kw R n = .done q t k) :
    generateMesh boxEval domain edge kw { R with points := some ps', dt := dt' } n = .done q t k := by
  have := C125_point_order hd hps hR dt' hpc henc hrk hpt hg n
  rw [h] at this
  revert this
  cases generateMesh boxEval domain edge kw { R with points := some ps', dt := dt' } n with
  | running s => exact fun h => h.elim
  | raised e => exact fun h => h.elim
  | done q' t' k' => rintro ⟨rfl, rfl, rfl⟩; rfl

/-- Three points have one triangulation, however they are listed. -/
theorem three_same {a b c : Fin d → ℝ} (hnd : [a, b, c].Nodup) {l : List (Fin d → ℝ)} (hl : l.Perm [a, b, c]) :
    ∃ σ, SameMesh σ [a, b, c] [[0, 1, 2]] l [[2, 1, 0]] := by
  classical
  have hmem : ∀ i (hi : i < 3), [a, b, c][i] ∈ l := fun i hi => hl.mem_iff.2 (List.getElem_mem hi)
  let σ : ℕ → ℕ := fun i => l.idxOf ([a, b, c].getD i a)
  have hplace : ∀ i < [a, b, c].length, l[σ i]? = [a, b, c][i]? := by
    intro i hi
    have e : [a, b, c].getD i a = [a, b, c][i] := by simp [List.getD_eq_getElem?_getD, List.getElem?_eq_getElem hi]
    have hm := hmem i hi
    simp only [σ, e]
    rw [List.getElem?_eq_getElem (List.idxOf_lt_length_of_mem hm), List.getElem?_eq_getElem hi, List.getElem_idxOf]
  have hren : Renames σ 3 := by
    have h0 : SameMesh σ [a, b, c] [] l [] := ⟨hl, hplace, by simp, by simp⟩
    exact renames_of_same hnd h0
  have hp := hren.perm
  have hrow : [2, 1, 0].Perm ([0, 1, 2].map σ) := by
    refine List.Perm.trans (by decide) hp.symm
  exact ⟨σ, hl, hplace, by intro r hr; simp only [List.mem_singleton] at hr; subst hr; exact ⟨_, by simp, hrow⟩,
    by intro r hr; simp only [List.mem_singleton] at hr; subst hr; exact ⟨_, by simp, hrow⟩⟩

/-- The keyword argument of the example below. -/
def kw1 : Gen.Kwargs := [("max_iter", .num (.int 1))]

/-- A concrete case of `C125_point_order`: the corners of a triangle given in two orders, one of them also as a fixed point, triangulated with other numberings. -/
example {κ ρ : Type} [LinearOrder κ] [LinearOrder ρ] (boxEval : List ℝ → (Fin 2 → ℝ) → ℝ) (domain : Gen.DomainArg (Fin 2 → ℝ))
    (edge : Gen.SizeArg (Fin 2 → ℝ)) (R : Rest 2 κ ρ) (hR : R.points = some [![0, 0], ![1, 0], ![0, 1]]) (hdt : R.dt = fun a => (a, [[0, 1, 2]]))
    (hfix : ∀ S, fixOf R S = [![1, 0]]) (henc : Function.Injective R.tools.enc) (hrk : Function.Injective R.tools.rk) (hpt : R.tools.ptol = 1 / 1000) (n : ℕ) :
    SameOutcome (generateMesh boxEval domain edge kw1 R n)
      (generateMesh boxEval domain edge kw1 { R with points := some [![0, 1], ![0, 0], ![1, 0]], dt := fun a => (a, [[2, 1, 0]]) } n) := by
  have ne1 : (![0, 0] : Fin 2 → ℝ) ≠ ![1, 0] := fun h => by have := congrFun h 0; simp at this
  have ne2 : (![0, 0] : Fin 2 → ℝ) ≠ ![0, 1] := fun h => by have := congrFun h 1; simp at this
  have ne3 : (![1, 0] : Fin 2 → ℝ) ≠ ![0, 1] := fun h => by have := congrFun h 0; simp at this
  have hnd : [(![0, 0] : Fin 2 → ℝ), ![1, 0], ![0, 1]].Nodup := by simp [ne1, ne2, ne3]
  refine C125_point_order (Or.inl rfl) ?_ hR _ (Or.inl rfl) henc hrk (by rw [hpt]; norm_num) ?_ n
  · exact (List.perm_append_comm (l₁ := [![0, 1]]) (l₂ := [![0, 0], ![1, 0]]))
  · intro E hE k s hs
    obtain ⟨S, m, -, -, hm, -, rfl⟩ := prepare_ok hE
    have hm1 : m = 1 := by
      have : Gen.maxIterOf kw1 = .ok 1 := by
        simp [kw1, Gen.maxIterOf, Gen.getOpt, Gen.asNum, Gen.Num.val, bind, Except.bind, pure, Except.pure]
      rw [this] at hm; exact (Except.ok.inj hm).symm
    subst hm1
    have hs0 : s.p = [![0, 0], ![1, 0], ![0, 1]] := by
      simp only [generateMesh, hE] at hs
      cases k with
      | zero => simp only [run, Outcome.running.injEq] at hs; rw [← hs]
      | succ k =>
        exfalso
        simp only [run] at hs
        have : ∀ v, step (envOf R S 1) ⟨0, [![0, 0], ![1, 0], ![0, 1]], 0⟩ ≠ .running v := by
          intro v hv
          have e : (((0 : ℕ) : ℝ)) = (envOf R S 1).maxIter - 1 := by simp [envOf]
          unfold step at hv
          split at hv
          · simp at hv
          · rw [if_pos e] at hv
            split at hv <;> simp at hv
        cases hst : step (envOf R S 1) ⟨0, [![0, 0], ![1, 0], ![0, 1]], 0⟩ with
        | running v => exact this v hst
        | done q t k => rw [hst] at hs; simp at hs
        | raised e => rw [hst] at hs; simp at hs
    rw [hs0, hdt]
    refine ⟨⟨?_, ?_, ?_, ?_, ?_⟩, ?_⟩
    · simpa [envOf, hdt] using hnd
    · simp only [envOf, hdt]; intro r hr i hi; simp only [List.mem_singleton] at hr; subst hr; simp at hi ⊢; omega
    · simp only [envOf, hdt]; intro r hr; simp only [List.mem_singleton] at hr; subst hr; simp
    · intro a' ha
      refine ⟨fun r hr => by simp only [List.mem_singleton] at hr; subst hr; simp, ?_⟩
      simp only [envOf, hdt]
      exact three_same hnd ha
    · intro f hf
      simp only [envOf, hfix, List.mem_singleton] at hf
      subst hf
      refine ⟨![1, 0], by simp [envOf, hdt], ?_⟩
      intro y hy hne
      simp only [envOf, hdt, List.mem_cons, List.not_mem_nil, or_false] at hy
      rcases hy with rfl | rfl | rfl
      · simp
      · exact absurd rfl hne
      · simp
    · intro _ L hL
      have h1 : L ≤ 1 := by
        obtain ⟨x, hx, y, hy, i, e⟩ := hL.1
        simp only [List.mem_cons, List.not_mem_nil, or_false] at hx hy
        rw [e]
        rcases hx with rfl | rfl | rfl <;> rcases hy with rfl | rfl | rfl <;> fin_cases i <;> simp
      rw [hpt]
      have h2 : 1 / 1000 * L < 1 := by linarith
      have h2' : (1000 : ℝ)⁻¹ * L < 1 := by linarith
      simp only [FixMesh.Apart, List.pairwise_cons, List.mem_cons, List.not_mem_nil, or_false, forall_eq_or_imp, forall_eq, IsEmpty.forall_iff, implies_true,
        and_true, List.Pairwise.nil]
      exact ⟨⟨⟨0, by simpa using h2'⟩, ⟨1, by simpa using h2'⟩⟩, ⟨0, by simpa using h2'⟩⟩

end

end SM.Generate
