import Verif.Props.ParallelExample

/-!
# C79: what the ranks return, in every execution

Nothing is assumed here: whatever the messages are, whatever the other ranks do and whatever the schedule is, a returned value is as stated.
-/

namespace SM.Mpi

variable {M R S : Type}

/-- Whatever is received, a value returned by the program satisfies `Q`. -/
def Yields (Q : R → Prop) : Proc M R → Prop
  | .ret x => Q x
  | .raised _ => True
  | .send _ _ _ k => Yields Q k
  | .wait _ _ _ k => Yields Q k
  | .recv _ _ k => ∀ m, Yields Q (k m)
  | .coll _ _ k => ∀ l, Yields Q (k l)
  | .inColl _ _ k => ∀ l, Yields Q (k l)

theorem Yields.bind {Q : R → Prop} {T : S → Prop} {p : Proc M R} {f : R → Proc M S} (h : Yields Q p) (hf : ∀ x, Q x → Yields T (f x)) : Yields T (p.bind f) := by
  induction p with
  | ret x => exact hf x h
  | raised => trivial
  | send _ _ _ _ ih => exact ih h
  | wait _ _ _ _ ih => exact ih h
  | recv _ _ _ ih => exact fun m => ih m (h m)
  | coll _ _ _ ih => exact fun m => ih m (h m)
  | inColl _ _ _ ih => exact fun m => ih m (h m)

theorem yields_true (p : Proc M R) : Yields (fun _ => True) p := by
  induction p with
  | ret x => trivial
  | raised => trivial
  | send _ _ _ _ ih => exact ih
  | wait _ _ _ _ ih => exact ih
  | recv _ _ _ ih => exact fun m => ih m
  | coll _ _ _ ih => exact fun m => ih m
  | inColl _ _ _ ih => exact fun m => ih m

theorem Yields.mono {Q T : R → Prop} {p : Proc M R} (h : Yields Q p) (hf : ∀ x, Q x → T x) : Yields T p := by
  induction p with
  | ret x => exact hf x h
  | raised => trivial
  | send _ _ _ _ ih => exact ih h
  | wait _ _ _ _ ih => exact ih h
  | recv _ _ _ ih => exact fun m => ih m (h m)
  | coll _ _ _ ih => exact fun m => ih m (h m)
  | inColl _ _ _ ih => exact fun m => ih m (h m)

theorem Yields.embed {M' : Type} {inj : M → M'} {prj : M' → Option M} {Q : R → Prop} {p : Proc M R} (h : Yields Q p) : Yields Q (p.embed inj prj) := by
  induction p with
  | ret x => exact h
  | raised => trivial
  | send _ _ _ _ ih => exact ih h
  | wait _ _ _ _ ih => exact ih h
  | recv _ _ _ ih =>
    intro m'
    cases hm : prj m' with
    | none => simp only [hm, Option.elim]; trivial
    | some m => simp only [hm, Option.elim]; exact ih m (h m)
  | coll _ _ _ ih =>
    intro l
    cases hm : l.mapM prj with
    | none => simp only [hm, Option.elim]; trivial
    | some m => simp only [hm, Option.elim]; exact ih m (h m)
  | inColl _ _ _ ih =>
    intro l
    cases hm : l.mapM prj with
    | none => simp only [hm, Option.elim]; trivial
    | some m => simp only [hm, Option.elim]; exact ih m (h m)

theorem yields_lift {e : Except String R} {Q : R → Prop} (h : ∀ x, e = .ok x → Q x) : Yields Q (lift e : Proc M R) := by
  cases e with
  | error => trivial
  | ok x => exact h x rfl

theorem yields_next {P : ℕ} {b : Bool} {s : State M R} {r : ℕ} {l : Local M R} (h : next P b s r = some l) {Q : R → Prop} (hy : Yields Q (s r).proc) :
    Yields Q l.proc := by
  unfold next at h
  split at h
  · simp at h
  · simp at h
  · rename_i hp
    rw [hp] at hy
    simp only [Option.some.injEq] at h; subst h; exact hy
  · rename_i hp
    rw [hp] at hy
    split at h
    · simp at h
    simp only [Option.some.injEq] at h; subst h; exact hy
  · rename_i hp
    rw [hp] at hy
    split at h
    · simp only [Option.some.injEq] at h; subst h; exact hy _
    · simp at h
  · rename_i hp
    rw [hp] at hy
    simp only [Option.some.injEq] at h; subst h; exact hy
  · rename_i hp
    rw [hp] at hy
    split at h
    · simp at h
    split at h
    · simp only [Option.some.injEq] at h; subst h; exact hy _
    · simp at h

/-- In every execution a returned value is as predicted. -/
theorem yields_run {P n : ℕ} {b : Bool} {s u : State M R} (hu : Run P b n s u) {Q : R → Prop} {r : ℕ} (hy : Yields Q (s r).proc) : Yields Q (u r).proc := by
  induction hu with
  | nil => exact hy
  | cons h1 _ ih =>
    obtain ⟨q, -, l, hl, rfl⟩ := h1
    apply ih
    by_cases hqr : r = q
    · subst hqr
      rw [Function.update_self]
      exact yields_next hl hy
    · rw [Function.update_of_ne hqr]; exact hy

end SM.Mpi

namespace SM.Parallel

open Mpi Np MeshLoop Distribute

variable {d : ℕ} {κ ρ : Type} [LinearOrder κ] [LinearOrder ρ]

/-- What a rank may return after at most `n` further passes from a state with `count = c`. -/
def Allowed (W : World d κ ρ) (r c n : ℕ) : Result d → Prop
  | .running s => s.count = c + n
  | .flags => r ≠ 0 ∧ ∃ k, c ≤ k ∧ k < c + n ∧ (k : ℝ) = W.E.maxIter - 1
  | .mesh p t => r = 0 ∧ (∃ k, c ≤ k ∧ k < c + n ∧ (k : ℝ) = W.E.maxIter - 1) ∧
      ∀ row ∈ t, ∃ vs, Np.take p row = .ok vs ∧ W.E.fd (fun k => (vs.map fun v => v k).sum / ((d : ℝ) + 1)) < -(0.001 * W.E.h0)

theorem aggregate_yields {V : Type} (fix : List V → List (List ℕ) → Except String (List V × List (List ℕ))) (P r : ℕ) (p : List V) (t : List (List ℕ)) :
    Yields (fun a => a = none ↔ r ≠ 0) (aggregate fix P r p t) := by
  refine (yields_true _).bind fun x _ => ?_
  refine (yields_true _).bind fun y _ => ?_
  refine (yields_true _).bind fun z _ => ?_
  refine (yields_true _).bind fun g _ => ?_
  split
  · rename_i h; simp [Yields, pure, h]
  · rename_i h; simp [Yields, pure, h]

theorem afterGhosts_yields (W : World d κ ρ) (P r : ℕ) (fh : (Fin d → ℝ) → ℝ) (s : State d) (g : List (Fin d → ℝ) × List (List ℕ) × List ℕ × ℕ) :
    Yields (Allowed W r s.count 1) (afterGhosts W P r fh s g) := by
  refine (yields_true _).bind fun top _ => ?_
  split
  · rename_i hc
    refine (aggregate_yields _ P r _ _).embed.bind fun a ha => ?_
    cases a with
    | none => exact ⟨ha.1 rfl, s.count, le_refl _, by omega, hc⟩
    | some a =>
      have h0 : r = 0 := by
        by_contra h
        simpa using ha.2 h
      refine (yields_lift (Q := fun m => finish (envWith W P r fh (.ok g) a) top.1 top.2.1 = .ok m) fun x hx => hx).bind fun m hm => ?_
      refine ⟨h0, ⟨s.count, le_refl _, by omega, hc⟩, fun row hrow => ?_⟩
      exact finish_inside (E := envWith W P r fh (.ok g) a) h0 hm row hrow
  · refine (yields_true _).bind fun p _ => ?_
    rfl

theorem passes_yields (W : World d κ ρ) (P r : ℕ) (fh : (Fin d → ℝ) → ℝ) (extents : List (List ℝ)) (n : ℕ) (s : State d) :
    Yields (Allowed W r s.count n) (passes W P r fh extents n s) := by
  induction n generalizing s with
  | zero => rfl
  | succ n ih =>
    have hp : Yields (Allowed W r s.count 1) (pass W P r fh extents s) := by
      refine (yields_true _).bind fun _ _ => ?_
      refine (yields_true _).bind fun _ _ => ?_
      exact afterGhosts_yields W P r fh s _
    refine hp.bind fun o ho => ?_
    cases o with
    | running s' =>
      have hc : s'.count = s.count + 1 := ho
      refine (ih s').mono fun x hx => ?_
      cases x with
      | running s2 => have : s2.count = s'.count + n := hx; show s2.count = _; omega
      | flags => obtain ⟨h0, k, h1, h2, h3⟩ := hx; exact ⟨h0, k, by omega, by omega, h3⟩
      | mesh p t => obtain ⟨h0, ⟨k, h1, h2, h3⟩, h4⟩ := hx; exact ⟨h0, ⟨k, by omega, by omega, h3⟩, h4⟩
    | flags => obtain ⟨h0, k, h1, h2, h3⟩ := ho; exact ⟨h0, k, by omega, by omega, h3⟩
    | mesh p t => obtain ⟨h0, ⟨k, h1, h2, h3⟩, h4⟩ := ho; exact ⟨h0, ⟨k, by omega, by omega, h3⟩, h4⟩

theorem rankRun_yields (W : World d κ ρ) (I : Init.Input d) (eps : ℝ) (points : Option (List (Fin d → ℝ))) (P r n : ℕ) :
    Yields (Allowed W r 0 n) (rankRun W I eps points P r n) := by
  refine (yields_true _).bind fun i _ => ?_
  split
  · trivial
  split
  · trivial
  · exact passes_yields W P r i.1 i.2.2 n ⟨0, i.2.1, 0⟩

variable {W : World d κ ρ} {I : Init.Input d} {eps : ℝ} {points : Option (List (Fin d → ℝ))} {P n m : ℕ} {b : Bool} {u : Mpi.State (Msg d) (Result d)}

/-- **C79 (domain).** In every execution of a run on `P` ranks: a mesh that a rank has returned has every cell's centroid (computed with the returned vertices) inside the
domain by a margin of `0.001 * h0`. -/
theorem C79_inside (hu : Run P b m (init fun r => rankRun W I eps points P r n) u) {r : ℕ} {p : List (Fin d → ℝ)} {t : List (List ℕ)}
    (h : (u r).proc = .ret (.mesh p t)) : ∀ row ∈ t, ∃ vs, Np.take p row = .ok vs ∧ W.E.fd (fun k => (vs.map fun v => v k).sum / ((d : ℝ) + 1)) < -(0.001 * W.E.h0) := by
  have := yields_run hu (rankRun_yields W I eps points P r n)
  rw [h] at this
  exact this.2.2

/-- **C79 (roles).** Only rank 0 returns a mesh; the other ranks return `(True, True)`, and rank 0 never does. -/
theorem C79_roles (hu : Run P b m (init fun r => rankRun W I eps points P r n) u) {r : ℕ} :
    ((∃ p t, (u r).proc = .ret (.mesh p t)) → r = 0) ∧ ((u r).proc = .ret .flags → r ≠ 0) := by
  have := yields_run hu (rankRun_yields W I eps points P r n)
  constructor
  · rintro ⟨p, t, h⟩
    rw [h] at this
    exact this.1
  · intro h
    rw [h] at this
    exact this.1

/-- **C79 (iterations).** A rank returns within `max_iter` passes or not at all, and not before: it returns after exactly `max_iter` passes. -/
theorem C79_iterations (hu : Run P b m (init fun r => rankRun W I eps points P r n) u) {r : ℕ} {x : Result d} (h : (u r).proc = .ret x) :
    (∀ s, x = .running s → s.count = n) ∧ ((∀ s, x ≠ .running s) → ∃ k : ℕ, 1 ≤ k ∧ k ≤ n ∧ W.E.maxIter = k) := by
  have := yields_run hu (rankRun_yields W I eps points P r n)
  rw [h] at this
  constructor
  · rintro s rfl
    have h : s.count = 0 + n := this
    omega
  · intro hx
    have key : ∃ k : ℕ, 0 ≤ k ∧ k < 0 + n ∧ (k : ℝ) = W.E.maxIter - 1 := by
      cases x with
      | running s => exact absurd rfl (hx s)
      | flags => exact this.2
      | mesh p t => exact this.2.1
    obtain ⟨k, -, h2, h3⟩ := key
    exact ⟨k + 1, by omega, by omega, by push_cast; linarith⟩

/-- The hypotheses are met: there is an execution of the example in which rank 0 has returned a cell. -/
example : ∃ m u, Run 2 false m (init fun r => rankRun (Example.world 1) Example.input 0 (some Example.points) 2 r 2) u ∧
    (u 0).proc = .ret (.mesh [![0, 0, 0], ![1, 0, 0], ![0, 1, 0], ![0, 0, 1]] [[0, 1, 2, 3]]) := by
  obtain ⟨m, u, hu, h⟩ := Example.run_completes.exists_final
  exact ⟨m, u, hu, h 0 (by omega)⟩

end SM.Parallel
