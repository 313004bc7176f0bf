import Verif.Model.MeshLoop
import Verif.Props.Options
import Verif.Props.Project
import Verif.Props.Laplace
import Verif.Props.FixMesh

/-!
# C53, C55, C58: the meshing loop
-/

namespace SM.MeshLoop

open Np Topology FixMesh

noncomputable section
variable {d : ℕ} {κ ρ : Type} [LinearOrder κ] [LinearOrder ρ]

/-- The state in which `generate_mesh` enters its loop. -/
def start (p : List (Fin d → ℝ)) : State d := ⟨0, p, 0⟩

/-! ### One pass -/

theorem step_running {E : Env d κ ρ} {s s' : State d} (h : step E s = .running s') :
    (s.count : ℝ) ≠ E.maxIter - 1 ∧ s'.count = s.count + 1 ∧ s'.tri = s.tri + 1 ∧
    ∃ p t ifix inv recvIx, topology E s = .ok (p, t, ifix, inv, recvIx) ∧ move E p t ifix inv recvIx = .ok s'.p := by
  unfold step at h
  cases ht : topology E s with
  | error e => simp [ht] at h
  | ok r =>
    obtain ⟨p, t, ifix, inv, recvIx⟩ := r
    simp only [ht] at h
    split at h
    · split at h <;> simp at h
    · rename_i hne
      cases hm : move E p t ifix inv recvIx with
      | error e => simp [hm] at h
      | ok q =>
        simp only [hm, Outcome.running.injEq] at h
        subst h
        exact ⟨hne, rfl, rfl, p, t, ifix, inv, recvIx, rfl, hm⟩

theorem step_done {E : Env d κ ρ} {s : State d} {p : List (Fin d → ℝ)} {t : List (List ℕ)} {k : ℕ}
    (h : step E s = .done p t k) :
    (s.count : ℝ) = E.maxIter - 1 ∧ k = s.tri + 1 ∧
    ∃ p1 t1 ifix inv recvIx, topology E s = .ok (p1, t1, ifix, inv, recvIx) ∧ finish E p1 t1 = .ok (p, t) := by
  unfold step at h
  cases ht : topology E s with
  | error e => simp [ht] at h
  | ok r =>
    obtain ⟨p1, t1, ifix, inv, recvIx⟩ := r
    simp only [ht] at h
    split at h
    · rename_i heq
      cases hf : finish E p1 t1 with
      | error e => simp [hf] at h
      | ok q =>
        obtain ⟨q1, q2⟩ := q
        simp only [hf, Outcome.done.injEq] at h
        obtain ⟨rfl, rfl, rfl⟩ := h
        exact ⟨heq, rfl, p1, t1, ifix, inv, recvIx, rfl, hf⟩
    · split at h <;> simp at h

/-- A finished run ends with a pass that finishes, from a state that was reached. -/
theorem run_done {E : Env d κ ρ} {n : ℕ} {s : State d} {p : List (Fin d → ℝ)} {t : List (List ℕ)} {k : ℕ}
    (h : run E n s = .done p t k) : ∃ m s', m < n ∧ run E m s = .running s' ∧ step E s' = .done p t k := by
  induction n generalizing s with
  | zero => simp [run] at h
  | succ n ih =>
    rw [run] at h
    cases hs : step E s with
    | running s1 =>
      simp only [hs] at h
      obtain ⟨m, s', hm, hr, hd⟩ := ih h
      exact ⟨m + 1, s', by omega, by rw [run, hs]; exact hr, hd⟩
    | done q u j =>
      simp only [hs, Outcome.done.injEq] at h
      obtain ⟨rfl, rfl, rfl⟩ := h
      exact ⟨0, s, by omega, rfl, hs⟩
    | raised e => simp [hs] at h

theorem run_running {E : Env d κ ρ} {n : ℕ} {s s' : State d} (h : run E n s = .running s') :
    s'.count = s.count + n ∧ s'.tri = s.tri + n := by
  induction n generalizing s with
  | zero => simp only [run, Outcome.running.injEq] at h; subst h; simp
  | succ n ih =>
    rw [run] at h
    cases hs : step E s with
    | running s1 =>
      simp only [hs] at h
      obtain ⟨h1, h2⟩ := ih h
      obtain ⟨-, h3, h4, -⟩ := step_running hs
      omega
    | done q u j => simp [hs] at h
    | raised e => simp [hs] at h

/-! ### C53 -/

/-- **C53.** For every positive integer `max_iter` the loop is over after `max_iter` passes at the latest (it
returns or raises), and when it returns a mesh it has triangulated exactly `max_iter` times. -/
theorem C53_exact_partial {E : Env d κ ρ} {m : ℕ} (hm : 1 ≤ m) (hE : E.maxIter = m) (p0 : List (Fin d → ℝ)) :
    (∀ n s, m ≤ n → run E n (start p0) ≠ .running s) ∧
    ∀ n p t k, run E n (start p0) = .done p t k → k = m := by
  constructor
  · intro n s hn h
    -- take the pass with count = m - 1
    have key : ∀ n s0 s, run E n s0 = .running s → ∀ j < n, ∃ s1, run E j s0 = .running s1 ∧ ∃ s2, step E s1 = .running s2 := by
      intro n
      induction n with
      | zero => intro s0 s _ j hj; omega
      | succ n ih =>
        intro s0 s h j hj
        rw [run] at h
        cases hs : step E s0 with
        | running s1 =>
          simp only [hs] at h
          cases j with
          | zero => exact ⟨s0, rfl, s1, hs⟩
          | succ j =>
            obtain ⟨s2, h2, h3⟩ := ih s1 s h j (by omega)
            exact ⟨s2, by rw [run, hs]; exact h2, h3⟩
        | done q u j => simp [hs] at h
        | raised e => simp [hs] at h
    obtain ⟨s1, h1, s2, h2⟩ := key n _ s h (m - 1) (by omega)
    obtain ⟨hc, -⟩ := run_running h1
    obtain ⟨hne, -⟩ := step_running h2
    apply hne
    rw [hE, hc]
    simp only [start, zero_add]
    rw [Nat.cast_sub hm]
    simp
  · intro n p t k h
    obtain ⟨j, s', -, hr, hd⟩ := run_done h
    obtain ⟨hc, htri⟩ := run_running hr
    obtain ⟨he, hk, -⟩ := step_done hd
    simp only [start, zero_add] at hc htri
    rw [hE, hc] at he
    have : (j : ℝ) + 1 = m := by linarith
    have : j + 1 = m := by exact_mod_cast this
    omega

/-- **C53 is false for the other accepted values.** For `max_iter = 0`, and for every number that is not a positive
integer, no number of passes ever returns a mesh. -/
theorem C53_never_returns {E : Env d κ ρ} (hE : ∀ m : ℕ, 1 ≤ m → E.maxIter ≠ m) (p0 : List (Fin d → ℝ)) (n : ℕ)
    (p : List (Fin d → ℝ)) (t : List (List ℕ)) (k : ℕ) : run E n (start p0) ≠ .done p t k := by
  intro h
  obtain ⟨j, s', -, hr, hd⟩ := run_done h
  obtain ⟨he, -⟩ := step_done hd
  apply hE (s'.count + 1) (by omega)
  push_cast
  linarith

/-! ### C58 -/

theorem removeOutside_spec {fd : (Fin d → ℝ) → ℝ} {geps : ℝ} {p : List (Fin d → ℝ)} {t t' : List (List ℕ)}
    (h : Project.removeOutside fd geps p t = .ok t') (r : List ℕ) :
    r ∈ t' ↔ r ∈ t ∧ ∃ vs, Np.take p r = .ok vs ∧ fd (fun k => (vs.map fun v => v k).sum / ((d : ℝ) + 1)) < -geps := by
  unfold Project.removeOutside at h
  simp only [bind, Except.bind, pure, Except.pure] at h
  cases hk : t.mapM (Project.keeps fd geps p) with
  | error e => simp [hk] at h
  | ok ks =>
    simp only [hk, Except.ok.injEq] at h
    have hf := mapM_forall₂.1 hk
    clear hk
    subst h
    induction hf with
    | nil => simp
    | @cons r0 b t ks hb _ ih =>
      rw [List.zip_cons_cons, List.filter_cons, List.mem_cons]
      have hb' : ∃ vs, Np.take p r0 = .ok vs ∧
          (b = true ↔ fd (fun k => (vs.map fun v => v k).sum / ((d : ℝ) + 1)) < -geps) := by
        unfold Project.keeps at hb
        simp only [bind, Except.bind, pure, Except.pure] at hb
        cases hv : Np.take p r0 with
        | error e => simp [hv] at hb
        | ok vs =>
          simp only [hv, Except.ok.injEq] at hb
          refine ⟨vs, rfl, ?_⟩
          rw [← hb, decide_eq_true_iff]
          rfl
      obtain ⟨vs, hv, hiff⟩ := hb'
      cases b with
      | false =>
        simp only [Bool.false_eq_true, if_false, ih]
        constructor
        · rintro ⟨h1, h2⟩; exact ⟨Or.inr h1, h2⟩
        · rintro ⟨rfl | h1, ws, hw, h2⟩
          · rw [hv] at hw; cases hw
            exact absurd (hiff.2 h2) (by simp)
          · exact ⟨h1, ws, hw, h2⟩
      | true =>
        simp only [if_true, List.map_cons, List.mem_cons, ih]
        constructor
        · rintro (rfl | ⟨h1, h2⟩)
          · exact ⟨Or.inl rfl, vs, hv, hiff.1 rfl⟩
          · exact ⟨Or.inr h1, h2⟩
        · rintro ⟨rfl | h1, h2⟩
          · exact Or.inl rfl
          · exact Or.inr ⟨h1, h2⟩

theorem finish_inside {E : Env d κ ρ} (hrank : E.rank = 0) {p1 p : List (Fin d → ℝ)} {t1 t : List (List ℕ)} (hf : finish E p1 t1 = .ok (p, t)) (r : List ℕ)
    (hr : r ∈ t) : ∃ vs, Np.take p r = .ok vs ∧ E.fd (fun k => (vs.map fun v => v k).sum / ((d : ℝ) + 1)) < -(0.001 * E.h0) := by
  unfold finish at hf
  simp only [hrank, if_true, bind, Except.bind, pure, Except.pure] at hf
  split at hf
  · simp at hf
  rename_i pt hpt
  obtain ⟨p2, t2⟩ := pt
  simp only at hf
  split at hf
  · simp at hf
  rename_i p3 hp3
  split at hf
  · simp at hf
  rename_i t3 ht3
  simp only [Except.ok.injEq, Prod.mk.injEq] at hf
  obtain ⟨rfl, rfl⟩ := hf
  obtain ⟨-, vs, hv, hlt⟩ := (removeOutside_spec ht3 r).1 hr
  exact ⟨vs, hv, by rw [mul_comm]; exact hlt⟩

/-- **C58.** Whatever happened before, every cell of the mesh that rank 0 returns has its centroid, computed with the
returned vertices, strictly inside the domain by a margin of `0.001 * h0`. -/
theorem C58_inside {E : Env d κ ρ} (hrank : E.rank = 0) {n : ℕ} {p0 p : List (Fin d → ℝ)} {t : List (List ℕ)} {k : ℕ}
    (h : run E n (start p0) = .done p t k) (r : List ℕ) (hr : r ∈ t) :
    ∃ vs, Np.take p r = .ok vs ∧ E.fd (fun k => (vs.map fun v => v k).sum / ((d : ℝ) + 1)) < -(0.001 * E.h0) := by
  obtain ⟨m, s', -, -, hd⟩ := run_done h
  obtain ⟨-, -, p1, t1, ifix, inv, recvIx, -, hf⟩ := step_done hd
  exact finish_inside hrank hf r hr

/-! ### C55 -/

/-- The triangulation keeps every inserted point as a vertex. -/
def KeepsPoints (E : Env d κ ρ) : Prop := ∀ p : List (Fin d → ℝ), ∀ x ∈ p, x ∈ (E.dt p).1

/-- The fixed points lie in the closed domain and are not in the zone where the projection onto a
subdomain moves points. -/
def FixedOk (E : Env d κ ρ) : Prop :=
  ∀ f ∈ E.pfix, E.fd f ≤ 0 ∧ ∀ g ∈ E.subs, g f ≤ 0 ∨ E.h0 / 1.5 ≤ g f

theorem distSq_zero {a b : Fin d → ℝ} (h : Laplace.distSq a b = 0) : a = b := by
  unfold Laplace.distSq at h
  rw [Finset.sum_eq_zero_iff_of_nonneg fun k _ => sq_nonneg _] at h
  funext k
  have := pow_eq_zero_iff (two_ne_zero) |>.1 (h k (Finset.mem_univ k))
  linarith

theorem closestNode_mem {p : List (Fin d → ℝ)} {f : Fin d → ℝ} (hf : f ∈ p) {i : ℕ} (h : closestNode p f = .ok i) :
    p[i]? = some f := by
  have hn : 0 < p.length := List.length_pos_of_mem hf
  obtain ⟨j, hj, hc⟩ := Laplace.closest_ok hn f fun i : Fin p.length => p.get i
  unfold closestNode at h
  rw [hj] at h
  cases h
  obtain ⟨m, hm, hmf⟩ := List.getElem_of_mem hf
  have := hc ⟨m, hm⟩
  have h0 : Laplace.distSq (p.get ⟨m, hm⟩) f = 0 := by
    simp [Laplace.distSq, hmf]
  rw [h0] at this
  have h1 : Laplace.distSq (p.get j) f = 0 :=
    le_antisymm this (Finset.sum_nonneg fun k _ => sq_nonneg _)
  rw [List.getElem?_eq_getElem j.2]
  exact congrArg some (distSq_zero h1)

theorem projectAll_keeps {deps h0 : ℝ} : ∀ (ls : List ((Fin d → ℝ) → ℝ)) (idx : ℕ) (p : List (Fin d → ℝ)) (i : ℕ) (f : Fin d → ℝ),
    p[i]? = some f → (∀ g ∈ ls, g f ≤ 0 ∨ (idx ≠ 0 ∧ h0 / 1.5 ≤ g f)) →
    (projectAll deps h0 idx ls p)[i]? = some f := by
  intro ls
  induction ls with
  | nil => intro idx p i f h _; exact h
  | cons l ls ih =>
    intro idx p i f h hg
    rw [projectAll]
    apply ih
    · exact (Project.C56_inside_unmoved l deps h0 idx p).2 i f h (hg l (by simp))
    · intro g hg'
      rcases hg g (by simp [hg']) with h1 | h1
      · exact Or.inl h1
      · exact Or.inr ⟨by omega, h1.2⟩

theorem computeForces_length {eps : ℝ} {p : List (Fin d → ℝ)} {t : List (List ℕ)} {fh : (Fin d → ℝ) → ℝ} {m : ℝ}
    {F : List (Fin d → ℝ)} (h : Forces.computeForces eps p t fh m = .ok F) : F.length = p.length := by
  unfold Forces.computeForces at h
  simp only [bind, Except.bind, pure, Except.pure] at h
  split at h
  · simp at h
  split at h
  · simp at h
  simp only [Except.ok.injEq] at h
  rw [← h]
  simp [Forces.dense]

theorem topology_serial {E : Env d κ ρ} (hser : E.size = 1) {s : State d} {p : List (Fin d → ℝ)} {t : List (List ℕ)}
    {ifix inv : List ℕ} {rx : ℕ} (h : topology E s = .ok (p, t, ifix, inv, rx)) :
    p = (E.dt s.p).1 ∧ E.pfix.mapM (closestNode (E.dt s.p).1) = .ok ifix ∧
      Project.removeOutside E.fd E.geps (E.dt s.p).1 (E.dt s.p).2 = .ok t := by
  unfold topology at h
  simp only [hser, gt_iff_lt, lt_irrefl, if_false, bind, Except.bind, pure, Except.pure] at h
  split at h
  · simp at h
  rename_i ix hix
  split at h
  · simp at h
  rename_i t' ht'
  simp only [Except.ok.injEq, Prod.mk.injEq] at h
  obtain ⟨rfl, rfl, rfl, rfl, rfl⟩ := h
  exact ⟨rfl, hix, ht'⟩

theorem step_keeps {E : Env d κ ρ} (hser : E.size = 1) (hdt : KeepsPoints E) (hfix : FixedOk E) {s s' : State d}
    (hs : ∀ f ∈ E.pfix, f ∈ s.p) (h : step E s = .running s') : ∀ f ∈ E.pfix, f ∈ s'.p := by
  obtain ⟨-, -, -, p, t, ifix, inv, rx, ht, hm⟩ := step_running h
  obtain ⟨rfl, hif, -⟩ := topology_serial hser ht
  intro f hf
  have hmem : f ∈ (E.dt s.p).1 := hdt _ f (hs f hf)
  obtain ⟨i, hi, hci⟩ := forall₂_left (mapM_forall₂.1 hif) f hf
  have hpi := closestNode_mem hmem hci
  unfold move at hm
  simp only [bind, Except.bind, pure, Except.pure] at hm
  split at hm
  · simp at hm
  rename_i F hF
  have hlen := computeForces_length hF
  have hres : s'.p = projectAll E.deps E.h0 0 (E.fd :: E.subs) (advance E.deltaT (E.dt s.p).1 (zeroAt ifix F)) := by
    simp only [hser, gt_iff_lt, lt_irrefl, if_false] at hm
    split at hm
    · split at hm
      · simp [throw, throwThe, MonadExceptOf.throw] at hm
      split at hm
      · simp only [Except.ok.injEq] at hm; exact hm.symm
      · simp [throw, throwThe, MonadExceptOf.throw] at hm
    · simp only [Except.ok.injEq] at hm; exact hm.symm
  have hil : i < (E.dt s.p).1.length := by
    rw [List.getElem?_eq_some_iff] at hpi
    exact hpi.1
  have hadv : (advance E.deltaT (E.dt s.p).1 (zeroAt ifix F))[i]? = some f := by
    have hz : (zeroAt ifix F)[i]? = some 0 := by
      simp [zeroAt, hlen, hil, hi]
    rw [advance, List.getElem?_zipWith]
    simp only [hpi, hz]
    simp
  have := projectAll_keeps (deps := E.deps) (h0 := E.h0) (E.fd :: E.subs) 0 _ i f hadv
  rw [hres]
  -- the first level is the domain, the others have idx > 0
  have hfin : (projectAll E.deps E.h0 0 (E.fd :: E.subs) (advance E.deltaT (E.dt s.p).1 (zeroAt ifix F)))[i]? = some f := by
    rw [projectAll]
    apply projectAll_keeps
    · exact (Project.C56_inside_unmoved E.fd E.deps E.h0 0 _).2 i f hadv (Or.inl (hfix f hf).1)
    · intro g hg
      rcases (hfix f hf).2 g hg with h1 | h1
      · exact Or.inl h1
      · exact Or.inr ⟨by omega, h1⟩
  exact List.mem_of_getElem? hfin

/-- **C55 (partial).** In a serial run without user points, the fixed points are, unmoved, among the points at the
beginning of every pass and among the vertices of every triangulation, if the triangulation keeps its points and the
fixed points lie in the closed domain and outside the capture zone of the subdomains. Missing: the final clean-up, which
can move or remove them (see `C55_smoothing_moves`), and the cases of the other negative theorems. -/
theorem C55_loop_partial {E : Env d κ ρ} (hser : E.size = 1) (hdt : KeepsPoints E) (hfix : FixedOk E)
    (generated : List (Fin d → ℝ)) {n : ℕ} {s : State d}
    (h : run E n (start (startPoints none E.pfix generated)) = .running s) :
    ∀ f ∈ E.pfix, f ∈ s.p ∧ f ∈ (E.dt s.p).1 := by
  have key : ∀ n s0 s, (∀ f ∈ E.pfix, f ∈ s0.p) → run E n s0 = .running s → ∀ f ∈ E.pfix, f ∈ s.p := by
    intro n
    induction n with
    | zero =>
      intro s0 s h0 h
      simp only [run, Outcome.running.injEq] at h
      subst h; exact h0
    | succ n ih =>
      intro s0 s h0 h
      rw [run] at h
      cases hs : step E s0 with
      | running s1 => simp only [hs] at h; exact ih s1 s (step_keeps hser hdt hfix h0 hs) h
      | done q u j => simp [hs] at h
      | raised e => simp [hs] at h
  have := key n _ s (by intro f hf; simp [start, startPoints, hf]) h
  exact fun f hf => ⟨this f hf, hdt _ f (this f hf)⟩

/-- The last pass: vertices handed to the clean-up by a serial run. -/
theorem run_done_serial {E : Env d κ ρ} (hser : E.size = 1) {n : ℕ} {p0 p : List (Fin d → ℝ)} {t : List (List ℕ)} {k : ℕ}
    (h : run E n (start p0) = .done p t k) :
    ∃ m s t1, run E m (start p0) = .running s ∧ Project.removeOutside E.fd E.geps (E.dt s.p).1 (E.dt s.p).2 = .ok t1 ∧
      finish E (E.dt s.p).1 t1 = .ok (p, t) := by
  obtain ⟨m, s', -, hr, hd⟩ := run_done h
  obtain ⟨-, -, p1, t1, ifix, inv, recvIx, ht, hf⟩ := step_done hd
  obtain ⟨rfl, -, hrem⟩ := topology_serial hser ht
  exact ⟨m, s', t1, hr, hrem, hf⟩

theorem fixed_keeps (T : Tools d κ ρ) (hrk : Function.Injective T.rk) {p : List (Fin d → ℝ)} {t : List (List ℕ)}
    {p' : List (Fin d → ℝ)} {t' : List (List ℕ)} (hr : InRange p t) (h : fixed T p t = .ok (p', t'))
    {f : Fin d → ℝ} (huse : ∃ r ∈ t, ∃ i ∈ r, p[i]? = some f)
    (hiso : ∀ q ∈ p, keyOf T.enc T.ptol p q = keyOf T.enc T.ptol p f → q = f) : f ∈ p' := by
  obtain ⟨r, hrt, i, hir, hpi⟩ := huse
  cases p with
  | nil => simp at hpi
  | cons x0 ps =>
    obtain ⟨q', u', jx, hrun, hc, -, -, -⟩ := fixMesh_run (keyOf T.enc T.ptol (x0 :: ps)) hrk T.vol
      (p := x0 :: ps) (by simp) hr true true
    have hrun' : fixMeshK T.enc T.rk T.vol T.ptol (x0 :: ps) t true true = .ok (q', u', jx) := hrun
    unfold fixed at h
    simp only [hrun', bind, Except.bind, pure, Except.pure, Except.ok.injEq, Prod.mk.injEq] at h
    obtain ⟨rfl, rfl⟩ := h
    obtain ⟨r', hr', hperm⟩ := hc.bwd r hrt
    have hin : (some (keyOf T.enc T.ptol (x0 :: ps) f)) ∈ r.map fun i => ((x0 :: ps)[i]?).map (keyOf T.enc T.ptol (x0 :: ps)) :=
      List.mem_map.2 ⟨i, hir, by simp only [hpi, Option.map_some]⟩
    have hin' := hperm.mem_iff.2 hin
    obtain ⟨j, -, hj⟩ := List.mem_map.1 hin'
    cases hq : q'[j]? with
    | none => simp only [hq, Option.map_none, reduceCtorEq] at hj
    | some y =>
      simp only [hq, Option.map_some, Option.some.injEq] at hj
      have hy : y ∈ q' := List.mem_of_getElem? hq
      rw [← hiso y (hc.verts y hy) hj]
      exact hy

/-- **C55 (partial, three dimensions, without linting).** A fixed point on the level set (for example a corner of the
domain) is a vertex of the mesh returned by a serial run, unmoved, provided it is a vertex of a cell kept in the last
triangulation and `fix_mesh` does not merge it with another vertex. -/
theorem C55_returned3_partial {E : Env 3 κ ρ} (hser : E.size = 1) (hrank : E.rank = 0) (hchk : E.opts.performChecks = false)
    (hrk : Function.Injective E.tools.rk) {n : ℕ} {p0 p : List (Fin 3 → ℝ)} {t : List (List ℕ)} {k : ℕ}
    (h : run E n (start p0) = .done p t k) {f : Fin 3 → ℝ} (hlev : E.fd f = 0)
    (hlast : ∀ m s t1, run E m (start p0) = .running s →
      Project.removeOutside E.fd E.geps (E.dt s.p).1 (E.dt s.p).2 = .ok t1 →
      InRange (E.dt s.p).1 t1 ∧ (∃ r ∈ t1, ∃ i ∈ r, (E.dt s.p).1[i]? = some f) ∧
      ∀ q ∈ (E.dt s.p).1, keyOf E.tools.enc E.tools.ptol (E.dt s.p).1 q = keyOf E.tools.enc E.tools.ptol (E.dt s.p).1 f → q = f) :
    f ∈ p := by
  obtain ⟨m, s, t1, hr, hrem, hf⟩ := run_done_serial hser h
  obtain ⟨hin, huse, hiso⟩ := hlast m s t1 hr hrem
  unfold finish at hf
  simp only [hrank, if_true, bind, Except.bind, pure, Except.pure] at hf
  split at hf
  · simp at hf
  rename_i pt hpt
  obtain ⟨p2, t2⟩ := pt
  have hfix : fixed E.tools (E.dt s.p).1 t1 = .ok (p2, t2) := by
    unfold termination at hpt
    simp only [hser, gt_iff_lt, lt_irrefl, decide_false, Bool.false_and, Bool.false_eq_true, if_false, bind, Except.bind,
      pure, Except.pure, hchk, and_false] at hpt
    simpa using hpt
  have hmem := fixed_keeps E.tools hrk hin hfix huse hiso
  simp only at hf
  split at hf
  · simp at hf
  rename_i p3 hp3
  split at hf
  · simp at hf
  simp only [Except.ok.injEq, Prod.mk.injEq] at hf
  obtain ⟨rfl, -⟩ := hf
  obtain ⟨i, hi, hfi⟩ := List.getElem_of_mem hmem
  have hi' : p2[i]? = some f := by rw [List.getElem?_eq_getElem hi, hfi]
  unfold Project.improve at hp3
  simp only [bind, Except.bind] at hp3
  split at hp3
  · simp at hp3
  rename_i bid hbid
  -- the loop can only succeed if all boundary indices are in range
  have hb : ∀ v ∈ bid, v < p2.length := by
    rw [Project.improveLoop] at hp3
    simp only [Project.improveStep, bind, Except.bind] at hp3
    cases htk : Np.take p2 bid with
    | error e => simp [htk] at hp3
    | ok vs =>
      intro v hv
      obtain ⟨x, -, hx⟩ := forall₂_left (mapM_forall₂.1 htk) v hv
      have := item_ok.1 hx
      rw [List.getElem?_eq_some_iff] at this
      exact this.1
  obtain ⟨q, hq, -, hq'⟩ := Project.improveLoop_spec (fd := E.fd) (deps := E.deps) (bid := bid) 5 0 1 p2 hb
  rw [hq] at hp3
  cases hp3
  exact List.mem_of_getElem? (hq' i f hi' (Or.inr hlev))

/-- **C55 is false in parallel**: with more than one rank the fixed points are discarded. -/
theorem C55_parallel_ignored (pfix corners : Option (List (Fin d → ℝ))) (fd : (Fin d → ℝ) → ℝ) (deps : ℝ) {size : ℕ}
    (h : 1 < size) : fixedPoints pfix corners fd deps size = [] := by
  have h1 : size ≠ 1 := by omega
  unfold fixedPoints unpackPfix
  cases corners <;> cases pfix <;> simp [h1]

/-- **C55 is false with user points**: the fixed points are then not added to the point set. -/
theorem C55_user_points_ignored (ps pfix gen : List (Fin d → ℝ)) : startPoints (some ps) pfix gen = ps := rfl

/-- **C55 is false with the default `mesh_improvement` in 2-D**: the final Laplacian smoothing puts every interior
vertex, fixed or not, at the weighted average of its neighbours; an interior fixed point that is not there is moved. -/
theorem C55_smoothing_moves {T : Tools 2 κ ρ} (hrk : Function.Injective T.rk)
    (hsolve : ∀ n A b, (∃ x, A * x = b) → A * T.solve n A b = b)
    {p : List (Fin 2 → ℝ)} {t : List (List ℕ)} (ht : Simplices 3 t) (hr : InRange p t)
    (hc : Laplace.BoundaryConnected p.length t) (i : Fin p.length) (hi : ¬ OnBoundary2 t i) :
    ∃ q, laplacianFixed T p t = .ok (q, t) ∧ ∃ hl : q.length = p.length,
      (∀ k, ∑ j ∈ Finset.univ.erase i, (shared t i j : ℝ) * (q.get (i.cast hl.symm) k - q.get (j.cast hl.symm) k) = 0) ∧
      (∀ j : Fin p.length, OnBoundary2 t j → q.get (j.cast hl.symm) = p.get j) ∧
      ((∀ j : Fin p.length, j ≠ i → 0 < shared t i j → OnBoundary2 t j) →
        (∃ k, ∑ j ∈ Finset.univ.erase i, (shared t i j : ℝ) * (p.get i k - p.get j k) ≠ 0) →
        q.get (i.cast hl.symm) ≠ p.get i) := by
  obtain ⟨A, b, hrun, hiff⟩ := Laplace.C41_system hrk ht hr (fun i : Fin p.length => p.get i)
  obtain ⟨A', b', hrun', hex⟩ := Laplace.C41_unique hrk ht hr hc (fun i : Fin p.length => p.get i)
  rw [hrun] at hrun'
  simp only [Except.ok.injEq, Prod.mk.injEq] at hrun'
  obtain ⟨rfl, rfl⟩ := hrun'
  obtain ⟨x, hx, -⟩ := hex
  have hsol := (hiff _).1 (hsolve _ A b ⟨x, hx⟩)
  refine ⟨List.ofFn fun i => T.solve p.length A b i, ?_, by simp, ?_, ?_, ?_⟩
  · simp only [laplacianFixed, hrun, bind, Except.bind, pure, Except.pure]
  · intro k
    simpa using hsol.interior i hi k
  · intro j hj
    simpa using hsol.boundary j hj
  · intro hnb ⟨k, hk⟩ heq
    apply hk
    have hint := hsol.interior i hi k
    rw [← hint]
    apply Finset.sum_congr rfl
    intro j hj
    have hxi : T.solve p.length A b i = p.get i := by simpa using heq
    by_cases hs : 0 < shared t i j
    · rw [hxi, hsol.boundary j (hnb j (Finset.ne_of_mem_erase hj) hs)]
    · have : shared t i j = 0 := by omega
      simp [this]

/-! ### Concrete runs -/

/-- Tools that are never reached in the runs below. -/
def noTools : Tools 2 (List ℝ) (List ℕ) where
  enc q := [q 0, q 1]
  rk r := r
  vol := rowVol2
  qual _ := 1
  srt l := l
  ptol := 0
  solve _ _ b := b
  lint p t := .ok (p, t)
  aggregate p t := .ok (p, t)

/-- Three points and one triangle in a "domain" whose level-set function vanishes: no cell is kept, so nothing
moves except through the subdomain `sub`. -/
def exEnv (maxIter : ℝ) (subs : List ((Fin 2 → ℝ) → ℝ)) (pfix : List (Fin 2 → ℝ)) : Env 2 (List ℝ) (List ℕ) where
  tools := noTools
  dt p := (p, [[0, 1, 2]])
  ghost _ _ _ := .error ""
  fd _ := 0
  subs := subs
  fh _ := 1
  h0 := 1
  deltaT := 0.3
  geps := 0.1
  deps := 1 / 1000
  eps := 1 / 1000
  pfix := pfix
  rank := 0
  size := 1
  maxIter := maxIter
  opts := ⟨true, true, false⟩

theorem forces_nil (p : List (Fin 2 → ℝ)) (fh : (Fin 2 → ℝ) → ℝ) (eps m : ℝ) :
    Forces.computeForces eps p [] fh m = .ok (p.map fun _ => 0) := by
  have : getBars ([] : List (List ℕ)) (2 + 1) = .ok [] := by decide
  simp only [Forces.computeForces, this, bind, Except.bind, pure, Except.pure, List.mapM_nil, List.flatMap_nil, Forces.dense]
  congr 1
  apply List.ext_getElem
  · simp
  · intro i h1 h2
    simp [Laplace.cooEntry]
    rfl

theorem exEnv_step (m : ℝ) (subs : List ((Fin 2 → ℝ) → ℝ)) (a b c : Fin 2 → ℝ) (pfix : List (Fin 2 → ℝ)) (s : State 2)
    (hp : s.p = [a, b, c]) (hm : (s.count : ℝ) ≠ m - 1) :
    step (exEnv m subs pfix) s = .running ⟨s.count + 1, projectAll (1 / 1000) 1 0 ((fun _ => 0) :: subs) [a, b, c], s.tri + 1⟩ := by
  have hcl : ∀ f, ∃ i, closestNode [a, b, c] f = .ok i := by
    intro f
    obtain ⟨i, hi, -⟩ := Laplace.closest_ok (n := [a, b, c].length) (by simp) f fun i => [a, b, c].get i
    exact ⟨i.1, hi⟩
  obtain ⟨ifix, hif⟩ : ∃ ifix, pfix.mapM (closestNode [a, b, c]) = .ok ifix := by
    choose g hg using hcl
    exact ⟨_, mapM_ok fun f _ => hg f⟩
  have hrem : Project.removeOutside (fun _ : Fin 2 → ℝ => (0 : ℝ)) 0.1 [a, b, c] [[0, 1, 2]] = .ok [] := by
    have : ¬ ((0 : ℝ) < -0.1) := by norm_num
    simp [Project.removeOutside, Project.keeps, Np.take, item, bind, Except.bind, pure, Except.pure, this, List.mapM_cons]
  have htop : topology (exEnv m subs pfix) s = .ok ([a, b, c], [], ifix, [], 0) := by
    simp only [topology, exEnv, hp, hif, bind, Except.bind, pure, Except.pure, gt_iff_lt, lt_irrefl, if_false, hrem]
  have hadv : ∀ ifix : List ℕ, zeroAt ifix ([a, b, c].map fun _ => (0 : Fin 2 → ℝ)) = [0, 0, 0] := by
    intro ifix; simp [zeroAt]
  have hmove : move (exEnv m subs pfix) [a, b, c] [] ifix [] 0 =
      .ok (projectAll (1 / 1000) 1 0 ((fun _ => 0) :: subs) [a, b, c]) := by
    have h0 : advance (0.3 : ℝ) [a, b, c] [0, 0, 0] = [a, b, c] := by
      simp [advance]
    simp only [move, exEnv, forces_nil, hadv, bind, Except.bind, pure, Except.pure, h0]
    norm_num
  simp only [step, htop, hmove]
  rw [if_neg (by simpa [exEnv] using hm)]

/-- **C53 (witness).** With `max_iter = 0`, which passes the validation, the loop of this run never ends. -/
theorem C53_zero_diverges (a b c : Fin 2 → ℝ) :
    Gen.maxIterOf [("max_iter", .num (.int 0))] = .ok (exEnv 0 [] []).maxIter ∧
    ∀ n, ∃ s, run (exEnv 0 [] []) n (start [a, b, c]) = .running s := by
  constructor
  · rw [Gen.C51_max_iter]
    exact ⟨le_rfl, Or.inl ⟨.int 0, by simp [Gen.Passed], by simp [Gen.Num.val, exEnv]⟩⟩
  · have hproj : projectAll (1 / 1000) 1 0 [fun _ => (0 : ℝ)] [a, b, c] = [a, b, c] := by
      simp [projectAll, Project.projectBack, Project.selected]
    have key : ∀ n (s : State 2), s.p = [a, b, c] → ∃ s', run (exEnv 0 [] []) n s = .running s' := by
      intro n
      induction n with
      | zero => intro s _; exact ⟨s, rfl⟩
      | succ n ih =>
        intro s hs
        have hne : (s.count : ℝ) ≠ 0 - 1 := by
          have : (0 : ℝ) ≤ s.count := Nat.cast_nonneg _
          intro h; linarith
        rw [run, exEnv_step 0 [] a b c [] s hs hne, hproj]
        exact ih _ rfl
    exact fun n => key n _ rfl

/-- **C55 is false with subdomains**: a fixed point just outside a subdomain (here the half plane `x ≤ -1/4`) is moved
onto its boundary in the first pass. -/
theorem C55_subdomain_moves :
    ∃ s, run (exEnv 5 [Project.halfSpace ![1, 0] (-1 / 4)] [![0, 0]]) 1 (start [![0, 0], ![1, 0], ![0, 1]]) = .running s ∧
      (![0, 0] : Fin 2 → ℝ) ∉ s.p := by
  have h := exEnv_step 5 [Project.halfSpace ![1, 0] (-1 / 4)] ![0, 0] ![1, 0] ![0, 1] [![0, 0]] (start [![0, 0], ![1, 0], ![0, 1]]) rfl
    (by norm_num [start])
  refine ⟨_, by rw [run, h]; rfl, ?_⟩
  have hid : Project.projectBack (fun _ : Fin 2 → ℝ => (0 : ℝ)) (1 / 1000) 1 0 [![0, 0], ![1, 0], ![0, 1]] =
      [![0, 0], ![1, 0], ![0, 1]] := by simp [Project.projectBack, Project.selected]
  have hn : ∑ k, (![1, 0] : Fin 2 → ℝ) k ^ 2 = 1 := by simp
  simp only [projectAll, hid]
  rw [Project.projectBack]
  simp only [List.map_cons, List.map_nil, Project.newton_halfSpace hn (-1 / 4) (show (0 : ℝ) < 1 / 1000 by norm_num) (by norm_num)]
  simp only [Project.selected, Project.halfSpace, Fin.sum_univ_two, Matrix.cons_val_zero, Matrix.cons_val_one]
  norm_num
  constructor <;>
  · intro h
    have h0 := congrFun h 0
    norm_num [Project.foot, Project.halfSpace, Fin.sum_univ_two] at h0

/-- The hypotheses of `C55_loop_partial` and `C53_exact_partial` are met by a concrete environment. -/
example : KeepsPoints (exEnv 5 [] [![0, 0]]) ∧ FixedOk (exEnv 5 [] [![0, 0]]) ∧
    ∃ s, run (exEnv 5 [] [![0, 0]]) 1 (start (startPoints none [![0, 0]] [![1, 0], ![0, 1]])) = .running s := by
  refine ⟨fun p x hx => hx, fun f _ => ⟨le_rfl, by simp [exEnv]⟩, ?_⟩
  have h := exEnv_step 5 [] ![0, 0] ![1, 0] ![0, 1] [![0, 0]] (start [![0, 0], ![1, 0], ![0, 1]]) rfl (by norm_num [start])
  have h' : run (exEnv 5 [] [![0, 0]]) 1 (start (startPoints none [![0, 0]] [![1, 0], ![0, 1]])) =
      .running ⟨1, projectAll (1 / 1000) 1 0 [fun _ => 0] [![0, 0], ![1, 0], ![0, 1]], 1⟩ := by
    rw [show startPoints none [![0, 0]] [![1, 0], ![0, 1]] = [![0, 0], ![1, 0], (![0, 1] : Fin 2 → ℝ)] from rfl, run, h]
    rfl
  exact ⟨_, h'⟩

/-- Tools of the run below; only the linter (here the identity) is reached. -/
def insideTools : Tools 3 (List ℝ) (List ℕ) :=
  ⟨fun q => [q 0, q 1, q 2], id, rowVol3, fun _ => 1, id, 0, fun _ _ b => b, fun p t => .ok (p, t), fun p t => .ok (p, t)⟩

/-- A run that returns a cell: one tetrahedron strictly inside the domain, `max_iter = 1`, `perform_checks`. -/
theorem inside_run {E : Env 3 (List ℝ) (List ℕ)} (h1 : E.tools = insideTools) (h2 : E.dt = fun p => (p, [[0, 1, 2, 3]]))
    (h3 : E.fd = fun _ => -1) (h4 : E.geps < 1) (h5 : E.h0 * 0.001 < 1) (h6 : E.pfix = []) (h7 : E.rank = 0) (h8 : E.size = 1)
    (h9 : E.maxIter = 1) (h10 : E.opts = ⟨true, true, true⟩) (a b c e : Fin 3 → ℝ) :
    run E 1 (start [a, b, c, e]) = .done [a, b, c, e] [[0, 1, 2, 3]] 1 := by
  have hrem : ∀ g : ℝ, g < 1 → Project.removeOutside (fun _ : Fin 3 → ℝ => (-1 : ℝ)) g [a, b, c, e] [[0, 1, 2, 3]] = .ok [[0, 1, 2, 3]] := by
    intro g hg
    have : (-1 : ℝ) < -g := by linarith
    simp [Project.removeOutside, Project.keeps, Np.take, item, bind, Except.bind, pure, Except.pure, this, List.mapM_cons]
  have hnew : ∀ de al (x : Fin 3 → ℝ), Project.newton (fun _ => (-1 : ℝ)) de al x = x := by
    intro de al x; funext i; simp [Project.newton, Project.dgrad]
  have hb : getBoundaryVertices (id : List ℕ → List ℕ) [[0, 1, 2, 3]] 3 = .ok [0, 1, 2, 3] := by decide +kernel
  have hstep : ∀ de al, Project.improveStep (fun _ : Fin 3 → ℝ => (-1 : ℝ)) de al [0, 1, 2, 3] [a, b, c, e] = .ok [a, b, c, e] := by
    intro de al
    simp [Project.improveStep, Np.take, item, bind, Except.bind, pure, Except.pure, List.mapM_cons, hnew]
  have himp : ∀ de, Project.improve (id : List ℕ → List ℕ) (fun _ : Fin 3 → ℝ => (-1 : ℝ)) de [a, b, c, e] [[0, 1, 2, 3]] = .ok [a, b, c, e] := by
    intro de
    simp only [Project.improve, hb, Project.improveLoop, hstep, bind, Except.bind]
  have htop : topology E (start [a, b, c, e]) = .ok ([a, b, c, e], [[0, 1, 2, 3]], [], [], 0) := by
    simp only [topology, h2, h6, h8, h3, start, List.mapM_nil, bind, Except.bind, pure, Except.pure, hrem _ h4, gt_iff_lt, lt_irrefl, if_false]
  have hfin : finish E [a, b, c, e] [[0, 1, 2, 3]] = .ok ([a, b, c, e], [[0, 1, 2, 3]]) := by
    have ht : termination insideTools 0 1 false ⟨true, true, true⟩ [a, b, c, e] [[0, 1, 2, 3]] = .ok ([a, b, c, e], [[0, 1, 2, 3]]) := by
      simp [termination, insideTools, bind, Except.bind, pure, Except.pure]
    unfold finish
    rw [h1, h7, h8, h10, ht, h3]
    simp only [bind, Except.bind, if_true]
    rw [show insideTools.rk = id from rfl, himp]
    simp only
    rw [hrem _ h5]
    rfl
  simp only [run, step, htop, hfin]
  rw [if_pos (by simp [start, h9])]
  simp [start]

/-- The hypothesis of `C58_inside` is met by a run that returns a cell. -/
example (a b c e : Fin 3 → ℝ) : ∃ E : Env 3 (List ℝ) (List ℕ), E.rank = 0 ∧
    run E 1 (start [a, b, c, e]) = .done [a, b, c, e] [[0, 1, 2, 3]] 1 :=
  ⟨⟨insideTools, fun p => (p, [[0, 1, 2, 3]]), fun _ _ _ => .error "", fun _ => -1, [], fun _ => 1, 1, 0.3, 0.1, 1 / 1000, 1 / 1000,
    [], 0, 1, 1, ⟨true, true, true⟩⟩, rfl, inside_run rfl rfl rfl (by norm_num) (by norm_num) rfl rfl rfl rfl rfl a b c e⟩

end

end SM.MeshLoop
