import Verif.Lemmas.Mpi

/-!
# Confluence

All executions of the same programs can be continued to a common state, so the results do not depend on the schedule. A rank that
needs a message from a rank that sends none any more waits for ever.
-/

namespace SM.Mpi

variable {M R : Type} {P : ℕ}

/-- The rank has returned or raised. -/
def Stopped (p : Proc M R) : Prop := (∃ x, p = .ret x) ∨ ∃ e, p = .raised e

/-- All ranks have returned or raised. -/
def Ended (P : ℕ) (s : State M R) : Prop := ∀ r < P, Stopped (s r).proc

theorem stopped_next {b : Bool} {s : State M R} {r : ℕ} (h : Stopped (s r).proc) : next P b s r = none := by
  rcases h with ⟨x, hx⟩ | ⟨e, he⟩
  · simp [next, hx]
  · simp [next, he]

theorem ended_no_step {b : Bool} {s s' : State M R} (h : Ended P s) : ¬ Step P b s s' := by
  rintro ⟨r, hr, l, hl, -⟩
  rw [stopped_next (h r hr)] at hl
  cases hl

/-- One step against a run. -/
theorem strip {n : ℕ} {s u v : State M R} (hs : Step P false s u) (hr : Run P false n s v) :
    ∃ w, (∃ m, Run P false m u w) ∧ (w = v ∨ Step P false v w) := by
  induction hr generalizing u with
  | nil s => exact ⟨u, ⟨0, .nil u⟩, Or.inr hs⟩
  | cons h1 h2 ih =>
    rename_i n s x v
    obtain ⟨q, hq, lq, hlq, rfl⟩ := hs
    obtain ⟨r, hr, lr, hlr, rfl⟩ := h1
    by_cases hrq : r = q
    · subst hrq
      rw [hlq] at hlr
      cases hlr
      exact ⟨v, ⟨n, h2⟩, Or.inl rfl⟩
    · obtain ⟨d1, d2⟩ := diamond hrq hlr hlq
      obtain ⟨w, ⟨m, hm⟩, hw⟩ := ih (u := Function.update (Function.update s r lr) q lq) ⟨q, hq, lq, d2, rfl⟩
      refine ⟨w, ⟨m + 1, .cons ⟨r, hr, lr, d1, rfl⟩ ?_⟩, hw⟩
      rw [Function.update_comm hrq] at hm
      exact hm

/-- Two executions can be continued to a common state. -/
theorem confluent {n m : ℕ} {s u v : State M R} (hu : Run P false n s u) (hv : Run P false m s v) :
    ∃ w, (∃ k, Run P false k u w) ∧ ∃ k, Run P false k v w := by
  induction hu generalizing m v with
  | nil s => exact ⟨v, ⟨m, hv⟩, 0, .nil v⟩
  | cons h1 _ ih =>
    obtain ⟨w, ⟨k, hk⟩, hw⟩ := strip h1 hv
    obtain ⟨w', ⟨k1, h1'⟩, ⟨k2, h2'⟩⟩ := ih hk
    refine ⟨w', ⟨k1, h1'⟩, ?_⟩
    rcases hw with rfl | hst
    · exact ⟨k2, h2'⟩
    · exact ⟨k2 + 1, .cons hst h2'⟩

/-- A rank that has stopped stays as it is. -/
theorem stopped_stays {b : Bool} {n : ℕ} {s t : State M R} {r : ℕ} (h : Run P b n s t) (hs : Stopped (s r).proc) : t r = s r := by
  induction h with
  | nil => rfl
  | cons h1 _ ih =>
    obtain ⟨q, -, l, hl, rfl⟩ := h1
    have hqr : r ≠ q := by
      rintro rfl
      rw [stopped_next hs] at hl
      cases hl
    rw [ih (by rw [Function.update_of_ne hqr]; exact hs), Function.update_of_ne hqr]

/-- If a rank has stopped in two executions, it has stopped with the same result. -/
theorem same_result {n m : ℕ} {s u v : State M R} {r : ℕ} (hu : Run P false n s u) (hv : Run P false m s v) (h1 : Stopped (u r).proc)
    (h2 : Stopped (v r).proc) : (u r).proc = (v r).proc := by
  obtain ⟨w, ⟨k1, r1⟩, ⟨k2, r2⟩⟩ := confluent hu hv
  rw [← stopped_stays r1 h1, ← stopped_stays r2 h2]

/-- The program neither returns nor raises before it has received a message from `(a, t)`. -/
inductive Needs (a t : ℕ) : Proc M R → Prop
  | recv (k) : Needs a t (.recv a t k)
  | send (d u m k) : Needs a t k → Needs a t (.send d u m k)
  | wait (d u i k) : Needs a t k → Needs a t (.wait d u i k)
  | other (b u k) : (b ≠ a ∨ u ≠ t) → (∀ m, Needs a t (k m)) → Needs a t (.recv b u k)
  | coll (need m k) : (∀ l, Needs a t (k l)) → Needs a t (.coll need m k)
  | inColl (j need k) : (∀ l, Needs a t (k l)) → Needs a t (.inColl j need k)

theorem needs_not_stopped {a t : ℕ} {p : Proc M R} (h : Needs a t p) : ¬ Stopped p := by
  rintro (⟨x, rfl⟩ | ⟨e, rfl⟩) <;> cases h

theorem needs_step {a t : ℕ} {bf : Bool} {s : State M R} {r : ℕ} {l : Local M R} (h : next P bf s r = some l) (hn : Needs a t (s r).proc)
    (hg : ((s a).sent r t).length ≤ (s r).got a t) : Needs a t l.proc ∧ l.got a t = (s r).got a t := by
  unfold next at h
  split at h
  · simp at h
  · simp at h
  · rename_i hp
    rw [hp] at hn
    cases hn with
    | send _ _ _ _ hk => simp only [Option.some.injEq] at h; subst h; exact ⟨.wait _ _ _ _ hk, rfl⟩
  · rename_i hp
    rw [hp] at hn
    split at h
    · simp at h
    cases hn with
    | wait _ _ _ _ hk => simp only [Option.some.injEq] at h; subst h; exact ⟨hk, rfl⟩
  · rename_i hp
    rw [hp] at hn
    split at h
    · rename_i m hm
      simp only [Option.some.injEq] at h; subst h
      cases hn with
      | recv _ =>
        have := (List.getElem?_eq_some_iff.1 hm).1
        omega
      | other _ _ _ hne hk =>
        refine ⟨hk _, ?_⟩
        simp only [bump]
        rw [if_neg (by rintro ⟨rfl, rfl⟩; simp at hne)]
    · simp at h
  · rename_i hp
    rw [hp] at hn
    cases hn with
    | coll _ _ _ hk => simp only [Option.some.injEq] at h; subst h; exact ⟨.inColl _ _ _ hk, rfl⟩
  · rename_i hp
    rw [hp] at hn
    cases hn with
    | inColl _ _ _ hk =>
      split at h
      · simp at h
      split at h
      · simp only [Option.some.injEq] at h; subst h; exact ⟨hk _, rfl⟩
      · simp at h

/-- A state in which rank `a` has stopped and rank `b` needs a message from it that is not there. -/
def Starved (a b t : ℕ) (s : State M R) : Prop := Stopped (s a).proc ∧ Needs a t (s b).proc ∧ ((s a).sent b t).length ≤ (s b).got a t

theorem starved_run {a b t n : ℕ} {s w : State M R} (h : Run P false n s w) (hs : Starved a b t s) : Starved a b t w := by
  refine run_invariant (bf := false) (P := P) (I := Starved a b t) ?_ h hs
  rintro s s' ⟨i1, i2, i3⟩ ⟨r, -, l, hl, rfl⟩
  have hra : a ≠ r := by
    rintro rfl
    rw [stopped_next i1] at hl
    cases hl
  rw [Starved, Function.update_of_ne hra]
  refine ⟨i1, ?_⟩
  by_cases hbr : b = r
  · subst hbr
    rw [Function.update_self]
    obtain ⟨e1, e2⟩ := needs_step hl i2 i3
    exact ⟨e1, by rw [e2]; exact i3⟩
  · rw [Function.update_of_ne hbr]
    exact ⟨i2, i3⟩

/-- If some execution gets to such a state, rank `b` does not return or raise in any execution. -/
theorem starved_hangs {a b t n m : ℕ} {s w u : State M R} (h : Run P false n s w) (hw : Starved a b t w) (hu : Run P false m s u) : ¬ Stopped (u b).proc := by
  obtain ⟨x, ⟨k1, r1⟩, ⟨k2, r2⟩⟩ := confluent hu h
  intro hst
  rw [← stopped_stays r1 hst] at hst
  exact needs_not_stopped (starved_run r2 hw).2.1 hst

theorem run_weaken {k : ℕ} {x y : State M R} (h : Run P true k x y) : Run P false k x y := by
  induction h with
  | nil => exact .nil _
  | cons h1 _ ih => exact .cons (step_weaken h1) ih

theorem PReach.exists_run {prog g : ℕ → Proc M R} (h : PReach P prog g) :
    ∃ n s, Run P false n (init prog) s ∧ Delivered P s ∧ ∀ r < P, (s r).proc = g r := by
  obtain ⟨s', ⟨k, hr⟩, hq, hp⟩ := h.sound (init prog) ⟨fun _ _ _ _ _ => by simp [init], 0, fun _ _ => by simp [init]⟩ (fun _ _ => rfl)
  exact ⟨k, s', run_weaken hr, hq.1, hp⟩

/-- **Hanging.** If the programs can get to a point where rank `a` has stopped and rank `b` needs a message from it, then in no execution rank `b`
ever returns or raises. -/
theorem hangs {prog g : ℕ → Proc M R} (h : PReach P prog g) {a b t : ℕ} (ha : a < P) (hb : b < P) (h1 : Stopped (g a)) (h2 : Needs a t (g b))
    {n : ℕ} {s : State M R} (hs : Run P false n (init prog) s) : ¬ Stopped (s b).proc := by
  obtain ⟨k, s', hr, hq, hp⟩ := h.exists_run
  exact starved_hangs hr ⟨by rw [hp a ha]; exact h1, by rw [hp b hb]; exact h2, by rw [hq a ha b hb t]⟩ hs

/-- The same if rank `b` first sends something to `a` and gets a message from a third rank `c`. -/
theorem hangs_after {prog g : ℕ → Proc M R} (h : PReach P prog g) {a b c t t0 t1 : ℕ} {m0 m1 : M} {k : M → Proc M R} {kc : Proc M R} (ha : a < P) (hb : b < P)
    (hc : c < P) (hca : c ≠ a) (hcb : c ≠ b) (hab : a ≠ b) (h1 : Stopped (g a)) (h2 : g b = .send a t0 m0 (.recv c t1 k)) (h3 : g c = .send b t1 m1 kc)
    (h4 : Needs a t (k m1)) {n : ℕ} {s : State M R} (hs : Run P false n (init prog) s) : ¬ Stopped (s b).proc := by
  obtain ⟨j, w, hr, hq, hp⟩ := h.exists_run
  have hgot := hq c hc b hb t1
  have hpa := hp a ha
  have hpb := hp b hb
  have hpc := hp c hc
  rw [h2] at hpb
  rw [h3] at hpc
  -- rank b sends, rank b goes on, rank c sends, rank b receives
  let w1 : State M R := Function.update w b { w b with proc := .wait a t0 ((w b).sent a t0).length (.recv c t1 k), sent := push (w b).sent a t0 m0 }
  let w2 : State M R := Function.update w1 b { w1 b with proc := .recv c t1 k }
  let w3 : State M R := Function.update w2 c { w2 c with proc := .wait b t1 ((w2 c).sent b t1).length kc, sent := push (w2 c).sent b t1 m1 }
  let w4 : State M R := Function.update w3 b { w3 b with proc := k m1, got := bump (w3 b).got c t1 }
  have s1 : Step P false w w1 := ⟨b, hb, _, by simp [next, hpb], rfl⟩
  have s2 : Step P false w1 w2 := ⟨b, hb, _, by simp [next, w1], rfl⟩
  have e2c : w2 c = w c := by simp [w2, w1, hcb]
  have s3 : Step P false w2 w3 := ⟨c, hc, _, by simp [next, e2c, hpc], rfl⟩
  have e3b : (w3 b).got = (w b).got := by simp [w3, w2, w1, hcb.symm]
  have e3p : (w3 b).proc = .recv c t1 k := by simp [w3, w2, w1, hcb.symm]
  have e3c : (w3 c).sent b t1 = (w c).sent b t1 ++ [m1] := by simp [w3, e2c, push]
  have s4 : Step P false w3 w4 := by
    refine ⟨b, hb, _, ?_, rfl⟩
    unfold next
    rw [e3p]
    simp only [e3c, e3b, hgot]
    simp
  refine starved_hangs (hr.trans (.cons s1 (.cons s2 (.cons s3 (.cons s4 (.nil _)))))) (a := a) (t := t) ?_ hs
  have e4a : w4 a = w a := by simp [w4, w3, w2, w1, hab, hca.symm]
  refine ⟨by rw [e4a, hpa]; exact h1, by simp [w4]; exact h4, ?_⟩
  have : (w4 b).got a t = (w b).got a t := by
    simp only [w4, Function.update_self, bump, e3b]
    rw [if_neg (by rintro ⟨h, -⟩; exact hca h.symm)]
  rw [this, e4a, hq a ha b hb t]

end SM.Mpi
