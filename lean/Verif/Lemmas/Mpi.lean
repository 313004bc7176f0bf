import Verif.Model.Mpi
import Mathlib.Data.List.Basic
import Mathlib.Data.List.Infix
import Mathlib.Data.List.Range
import Mathlib.Tactic.Common

/-!
# Schedules do not matter

If one strict execution (nothing buffered) of the programs completes, then every execution does, with the same result.
-/

namespace SM.Mpi

variable {M R : Type} {P : ℕ}

/-! ## Monotonicity -/

/-- `l'` has done at least as much as `l`. -/
structure Ext (l l' : Local M R) : Prop where
  sent : ∀ d t, (l.sent d t) <+: (l'.sent d t)
  got : ∀ a t, l.got a t ≤ l'.got a t
  contrib : l.contrib <+: l'.contrib

theorem Ext.refl (l : Local M R) : Ext l l := ⟨fun _ _ => List.prefix_refl _, fun _ _ => le_refl _, List.prefix_refl _⟩

theorem prefix_getElem? {α : Type} {l l' : List α} (h : l <+: l') {i : ℕ} {x : α} (hx : l[i]? = some x) : l'[i]? = some x := by
  obtain ⟨k, rfl⟩ := h
  rw [List.getElem?_append_left (List.getElem?_eq_some_iff.1 hx).1, hx]

theorem next_ext {b : Bool} {s : State M R} {r : ℕ} {l : Local M R} (h : next P b s r = some l) : Ext (s r) l := by
  unfold next at h
  split at h
  · simp at h
  · simp at h
  · rename_i d t m k hp
    simp only [Option.some.injEq] at h
    subst h
    refine ⟨fun d' t' => ?_, fun _ _ => le_refl _, List.prefix_refl _⟩
    simp only [push]
    split
    · exact List.prefix_append _ _
    · exact List.prefix_refl _
  · split at h
    · simp at h
    · simp only [Option.some.injEq] at h; subst h
      exact ⟨fun _ _ => List.prefix_refl _, fun _ _ => le_refl _, List.prefix_refl _⟩
  · split at h
    · simp only [Option.some.injEq] at h; subst h
      refine ⟨fun _ _ => List.prefix_refl _, fun a t => ?_, List.prefix_refl _⟩
      simp only [bump]
      split <;> omega
    · simp at h
  · simp only [Option.some.injEq] at h; subst h
    exact ⟨fun _ _ => List.prefix_refl _, fun _ _ => le_refl _, List.prefix_append _ _⟩
  · split at h
    · simp at h
    · split at h
      · simp only [Option.some.injEq] at h; subst h
        exact ⟨fun _ _ => List.prefix_refl _, fun _ _ => le_refl _, List.prefix_refl _⟩
      · simp at h

theorem mapM_option_mono {α β : Type} {f g : α → Option β} {l : List α} {ys : List β} (hfg : ∀ x y, f x = some y → g x = some y)
    (h : l.mapM f = some ys) : l.mapM g = some ys := by
  induction l generalizing ys with
  | nil => simpa using h
  | cons x l ih =>
    simp only [List.mapM_cons, Option.pure_def, Option.bind_eq_bind, Option.bind_eq_some_iff, Option.some.injEq] at h ⊢
    obtain ⟨y, hy, zs, hzs, rfl⟩ := h
    exact ⟨y, hfg _ _ hy, zs, ih hzs, rfl⟩

/-- A rank that can do a step can still do it, with the same effect, after other ranks have done more. -/
theorem next_mono {b : Bool} {s s' : State M R} {r : ℕ} {l : Local M R} (hr : s' r = s r) (he : ∀ i, Ext (s i) (s' i))
    (h : next P b s r = some l) : next P b s' r = some l := by
  unfold next at h ⊢
  rw [hr]
  split at h
  · simp at h
  · simp at h
  · exact h
  · rename_i d t i k hp
    split at h
    · simp at h
    · rename_i hc
      rw [if_neg]
      · exact h
      · rintro ⟨hb, hg⟩
        exact hc ⟨hb, fun hlt => hg (lt_of_lt_of_le hlt ((he d).got r t))⟩
  · rename_i a t k hp
    split at h
    · rename_i m hm
      rw [prefix_getElem? ((he a).sent r t) hm]
      exact h
    · simp at h
  · exact h
  · rename_i j need k hp
    split at h
    · simp at h
    · rename_i hc
      split at h
      · rename_i ms hms
        rw [if_neg, mapM_option_mono (fun i y hy => prefix_getElem? (he i).contrib hy) hms]
        · exact h
        · rintro ⟨hb, hg⟩
          exact hc ⟨hb, fun hall => hg fun i hi => lt_of_lt_of_le (hall i hi) (he i).contrib.length_le⟩
      · simp at h

theorem next_weaken {s : State M R} {r : ℕ} {l : Local M R} (h : next P true s r = some l) : next P false s r = some l := by
  unfold next at h ⊢
  split at h
  · simp at h
  · simp at h
  · exact h
  · split at h
    · simp at h
    · simpa using h
  · exact h
  · exact h
  · split at h
    · simp at h
    · simpa using h

theorem step_weaken {s s' : State M R} (h : Step P true s s') : Step P false s s' := by
  obtain ⟨r, hr, l, hl, e⟩ := h
  exact ⟨r, hr, l, next_weaken hl, e⟩

theorem update_ext {s : State M R} {q : ℕ} {l : Local M R} (h : Ext (s q) l) (i : ℕ) : Ext (s i) (Function.update s q l i) := by
  by_cases hi : i = q
  · subst hi; simpa using h
  · simpa [hi] using Ext.refl _

/-- Steps of different ranks commute. -/
theorem diamond {b b' : Bool} {s : State M R} {r q : ℕ} (hrq : r ≠ q) {x y : Local M R} (h1 : next P b s r = some x) (h2 : next P b' s q = some y) :
    next P b (Function.update s q y) r = some x ∧ next P b' (Function.update s r x) q = some y :=
  ⟨next_mono (by simp [hrq]) (update_ext (next_ext h2)) h1, next_mono (by simp [hrq.symm]) (update_ext (next_ext h1)) h2⟩

/-- Nothing more happens: every rank has returned. -/
def Final (P : ℕ) (s : State M R) : Prop := ∀ r < P, ∃ x, (s r).proc = .ret x

theorem final_no_step {b : Bool} {s s' : State M R} (h : Final P s) : ¬ Step P b s s' := by
  rintro ⟨r, hr, l, hl, -⟩
  obtain ⟨x, hx⟩ := h r hr
  simp [next, hx] at hl

/-- A step taken early does not prevent a strict execution from completing. -/
theorem run_after_step {n : ℕ} {s s' t : State M R} (h : Run P true n s t) (ht : Final P t) (hs : Step P false s s') :
    ∃ m, n = m + 1 ∧ Run P true m s' t := by
  induction n generalizing s s' with
  | zero =>
    cases h
    exact absurd hs (final_no_step ht)
  | succ n ih =>
    cases h with
    | cons h1 h2 =>
      rename_i x
      obtain ⟨q, hq, lq, hlq, rfl⟩ := hs
      obtain ⟨r, hr, lr, hlr, rfl⟩ := h1
      refine ⟨n, rfl, ?_⟩
      by_cases hrq : r = q
      · subst hrq
        have := next_weaken hlr
        rw [hlq] at this
        cases this
        exact h2
      · obtain ⟨d1, d2⟩ := diamond hrq hlr hlq
        have hst : Step P false (Function.update s r lr) (Function.update (Function.update s r lr) q lq) := ⟨q, hq, lq, d2, rfl⟩
        obtain ⟨m, hm, hrun⟩ := ih h2 hst
        subst hm
        refine Run.cons ⟨r, hr, lr, d1, rfl⟩ ?_
        rw [Function.update_comm hrq] at hrun
        exact hrun

theorem run_after_run {n k : ℕ} {s s' t : State M R} (h : Run P true n s t) (ht : Final P t) (hs : Run P false k s s') :
    ∃ m, n = k + m ∧ Run P true m s' t := by
  induction hs generalizing n with
  | nil s => exact ⟨n, by simp, h⟩
  | cons h1 h2 ih =>
    obtain ⟨m, rfl, hm⟩ := run_after_step h ht h1
    obtain ⟨m', rfl, hm'⟩ := ih hm
    exact ⟨m', by omega, hm'⟩

/-- If one strict execution completes, the programs complete, whatever the schedule and the buffering. -/
theorem completes_of_run {N : ℕ} {prog : ℕ → Proc M R} {out : ℕ → R} {t : State M R} (h : Run P true N (init prog) t)
    (hout : ∀ r < P, (t r).proc = .ret (out r)) (hd : Delivered P t) : Completes P prog out := by
  refine ⟨N, fun n s hs => ?_⟩
  obtain ⟨m, rfl, hm⟩ := run_after_run h (fun r hr => ⟨_, hout r hr⟩) hs
  refine ⟨by omega, ?_⟩
  cases hm with
  | nil => exact Or.inr ⟨hout, hd⟩
  | cons h1 _ => exact Or.inl ⟨_, h1⟩

/-! ## Building strict executions -/

/-- A strict execution leads from `s` to `s'`. -/
def Reach (P : ℕ) (s s' : State M R) : Prop := ∃ n, Run P true n s s'

theorem Run.trans {b : Bool} {n m : ℕ} {s s' s'' : State M R} (h : Run P b n s s') (h' : Run P b m s' s'') : Run P b (n + m) s s'' := by
  induction h with
  | nil => simpa using h'
  | cons h1 _ ih =>
    rw [Nat.add_right_comm]
    exact Run.cons h1 (ih h')

theorem Reach.refl (s : State M R) : Reach P s s := ⟨0, .nil s⟩
theorem Reach.trans {s s' s'' : State M R} (h : Reach P s s') (h' : Reach P s' s'') : Reach P s s'' := by
  obtain ⟨n, h⟩ := h; obtain ⟨m, h'⟩ := h'
  exact ⟨n + m, h.trans h'⟩
theorem Reach.step {s : State M R} {r : ℕ} {l : Local M R} (hr : r < P) (h : next P true s r = some l) : Reach P s (Function.update s r l) :=
  ⟨1, .cons ⟨r, hr, l, h, rfl⟩ (.nil _)⟩

/-- A message goes from `a`, which is about to send it, to `b`, which is about to receive it. -/
theorem Reach.transfer {s : State M R} {a b t : ℕ} {m : M} {ka : Proc M R} {kb : M → Proc M R} (ha : a < P) (hb : b < P) (hab : a ≠ b)
    (h1 : (s a).proc = .send b t m ka) (h2 : (s b).proc = .recv a t kb) (h3 : (s b).got a t = ((s a).sent b t).length) :
    Reach P s (Function.update (Function.update s a { s a with proc := ka, sent := push (s a).sent b t m })
      b { s b with proc := kb m, got := bump (s b).got a t }) := by
  -- post
  have e1 : next P true s a = some { s a with proc := .wait b t ((s a).sent b t).length ka, sent := push (s a).sent b t m } := by
    simp [next, h1]
  refine (Reach.step ha e1).trans ?_
  set s1 := Function.update s a { s a with proc := .wait b t ((s a).sent b t).length ka, sent := push (s a).sent b t m } with hs1
  have s1a : s1 a = { s a with proc := .wait b t ((s a).sent b t).length ka, sent := push (s a).sent b t m } := by simp [hs1]
  have s1b : s1 b = s b := by simp [hs1, hab.symm]
  -- receive
  have e2 : next P true s1 b = some { s b with proc := kb m, got := bump (s b).got a t } := by
    unfold next
    rw [s1b, h2]
    simp only
    rw [s1a]
    simp [push, h3]
  refine (Reach.step hb e2).trans ?_
  set s2 := Function.update s1 b { s b with proc := kb m, got := bump (s b).got a t } with hs2
  have s2a : s2 a = { s a with proc := .wait b t ((s a).sent b t).length ka, sent := push (s a).sent b t m } := by
    simp [hs2, hab, s1a]
  have s2b : s2 b = { s b with proc := kb m, got := bump (s b).got a t } := by simp [hs2]
  -- return from send
  have e3 : next P true s2 a = some { s a with proc := ka, sent := push (s a).sent b t m } := by
    unfold next
    rw [s2a]
    simp only
    rw [s2b]
    simp [bump, h3]
  have := Reach.step ha e3
  convert this using 1
  rw [hs2, hs1, Function.update_comm hab.symm, Function.update_idem, Function.update_comm hab]

/-- The part of `s` on ranks `< P` replaced by `f`. -/
def patch (P : ℕ) (s f : State M R) : State M R := fun r => if r < P then f r else s r

theorem patch_zero (s f : State M R) : patch 0 s f = s := by funext r; simp [patch]

/-- All ranks go through a collective operation together. -/
theorem Reach.collective {s : State M R} {need : ℕ → List ℕ} {m : ℕ → M} {k : ℕ → List M → Proc M R} {j : ℕ}
    (h1 : ∀ r < P, (s r).proc = .coll (need r) (m r) (k r)) (h2 : ∀ r < P, (s r).contrib.length = j) (h3 : ∀ r < P, ∀ i ∈ need r, i < P) :
    Reach P s (patch P s fun r => { s r with proc := k r ((need r).map m), contrib := (s r).contrib ++ [m r] }) := by
  have enter : ∀ q ≤ P, Reach P s (patch q s fun r => { s r with proc := .inColl j (need r) (k r), contrib := (s r).contrib ++ [m r] }) := by
    intro q hq
    induction q with
    | zero => rw [patch_zero]; exact Reach.refl s
    | succ q ih =>
      refine (ih (by omega)).trans ?_
      have e : next P true (patch q s fun r => { s r with proc := .inColl j (need r) (k r), contrib := (s r).contrib ++ [m r] }) q =
          some { s q with proc := .inColl j (need q) (k q), contrib := (s q).contrib ++ [m q] } := by
        simp [next, patch, h1 q (by omega), h2 q (by omega)]
      have := Reach.step (by omega : q < P) e
      convert this using 1
      funext r
      simp only [patch, Function.update_apply]
      by_cases hr : r = q
      · subst hr; simp
      · rw [if_neg hr]
        have : r < q + 1 ↔ r < q := by omega
        simp only [this]
  refine (enter P (le_refl _)).trans ?_
  set s1 := patch P s fun r => { s r with proc := .inColl j (need r) (k r), contrib := (s r).contrib ++ [m r] } with hs1
  have leave : ∀ q ≤ P, Reach P s1 (patch q s1 fun r => { s r with proc := k r ((need r).map m), contrib := (s r).contrib ++ [m r] }) := by
    intro q hq
    induction q with
    | zero => rw [patch_zero]; exact Reach.refl s1
    | succ q ih =>
      refine (ih (by omega)).trans ?_
      set s2 := patch q s1 fun r => { s r with proc := k r ((need r).map m), contrib := (s r).contrib ++ [m r] } with hs2
      have hc : ∀ i < P, (s2 i).contrib = (s i).contrib ++ [m i] := by
        intro i hi
        simp only [hs2, patch]
        split
        · rfl
        · simp [hs1, patch, hi]
      have hq' : q < P := by omega
      have hmap : (need q).mapM (fun i => (s2 i).contrib[j]?) = some ((need q).map m) := by
        have : ∀ l : List ℕ, (∀ i ∈ l, i < P) → l.mapM (fun i => (s2 i).contrib[j]?) = some (l.map m) := by
          intro l hl
          induction l with
          | nil => simp
          | cons i l ihl =>
            have hi := hl i (by simp)
            simp only [List.mapM_cons, ihl fun i hi => hl i (by simp [hi]), hc i hi]
            rw [← h2 i hi]
            simp
        exact this _ (h3 q hq')
      have s2q : s2 q = { s q with proc := .inColl j (need q) (k q), contrib := (s q).contrib ++ [m q] } := by
        simp [hs2, patch, hs1, hq']
      have e : next P true s2 q = some { s q with proc := k q ((need q).map m), contrib := (s q).contrib ++ [m q] } := by
        unfold next
        rw [s2q]
        simp only
        rw [if_neg, hmap]
        rintro ⟨-, hn⟩
        apply hn
        intro i hi
        rw [hc i hi]
        simp [h2 i hi]
      have := Reach.step hq' e
      convert this using 1
      funext r
      simp only [patch, Function.update_apply]
      by_cases hr : r = q
      · subst hr; simp
      · rw [if_neg hr]
        have h' : r < q + 1 ↔ r < q := by omega
        simp only [hs2, patch, h']
  have := leave P (le_refl _)
  convert this using 1
  funext r
  simp only [patch, hs1]
  by_cases hr : r < P <;> simp [hr]

/-! ## Executions in terms of the remaining programs -/

/-- No message is in flight and all ranks have entered the same number of collectives. -/
def Quiet (P : ℕ) (s : State M R) : Prop := Delivered P s ∧ ∃ j, ∀ r < P, (s r).contrib.length = j

/-- From every quiet state in which the ranks are about to run `f`, a strict execution leads to a quiet one in which they
are about to run `g`. -/
def SemReach (P : ℕ) (f g : ℕ → Proc M R) : Prop :=
  ∀ s : State M R, Quiet P s → (∀ r < P, (s r).proc = f r) → ∃ s', Reach P s s' ∧ Quiet P s' ∧ ∀ r < P, (s' r).proc = g r

theorem SemReach.refl {f g : ℕ → Proc M R} (h : ∀ r < P, f r = g r) : SemReach P f g :=
  fun s hs hf => ⟨s, Reach.refl s, hs, fun r hr => by rw [hf r hr, h r hr]⟩

theorem SemReach.trans {f g h : ℕ → Proc M R} (h1 : SemReach P f g) (h2 : SemReach P g h) : SemReach P f h := by
  intro s hs hf
  obtain ⟨s1, r1, q1, p1⟩ := h1 s hs hf
  obtain ⟨s2, r2, q2, p2⟩ := h2 s1 q1 p1
  exact ⟨s2, r1.trans r2, q2, p2⟩

/-- One message. -/
theorem SemReach.transfer {f g : ℕ → Proc M R} {a b t : ℕ} {m : M} {ka : Proc M R} {kb : M → Proc M R} (ha : a < P) (hb : b < P) (hab : a ≠ b)
    (h1 : f a = .send b t m ka) (h2 : f b = .recv a t kb) (h3 : g a = ka) (h4 : g b = kb m) (h5 : ∀ r < P, r ≠ a → r ≠ b → g r = f r) : SemReach P f g := by
  intro s hs hf
  have hst := Reach.transfer ha hb hab ((hf a ha).trans h1) ((hf b hb).trans h2) (hs.1 a ha b hb t)
  refine ⟨_, hst, ⟨?_, ?_⟩, ?_⟩
  · intro x hx y hy u
    have h0 := hs.1 x hx y hy u
    by_cases hyb : y = b
    · subst hyb
      by_cases hxa : x = a
      · subst hxa
        simp only [Function.update_self, Function.update_of_ne hab, bump, push]
        by_cases hu : u = t
        · subst hu; simp [h0]
        · simp [hu, h0]
      · by_cases hxb : x = y
        · subst hxb
          simp only [Function.update_self, bump]
          rw [if_neg (by rintro ⟨e, -⟩; exact hab e.symm)]
          exact h0
        · simp only [Function.update_self, Function.update_of_ne hxa, Function.update_of_ne hxb, bump]
          rw [if_neg (by rintro ⟨e, -⟩; exact hxa e)]
          exact h0
    · rw [Function.update_of_ne hyb]
      have e1 : (Function.update s a { s a with proc := ka, sent := push (s a).sent b t m } y).got = (s y).got := by
        by_cases hya : y = a
        · subst hya; simp
        · simp [hya]
      rw [e1, h0]
      by_cases hxa : x = a
      · subst hxa
        simp only [Function.update_of_ne hab, Function.update_self, push]
        rw [if_neg (by rintro ⟨e, -⟩; exact hyb e)]
      · by_cases hxb : x = b
        · subst hxb; simp
        · simp [hxa, hxb]
  · obtain ⟨j, hj⟩ := hs.2
    refine ⟨j, fun r hr => ?_⟩
    have h0 := hj r hr
    by_cases hrb : r = b
    · subst hrb; simpa using h0
    · by_cases hra : r = a
      · subst hra; simpa [hrb] using h0
      · simpa [hrb, hra] using h0
  · intro r hr
    by_cases hrb : r = b
    · subst hrb; simp [h4]
    · by_cases hra : r = a
      · subst hra; simp [hrb, h3]
      · simp [hrb, hra, h5 r hr hra hrb, hf r hr]

/-- One collective operation. -/
theorem SemReach.collective {f g : ℕ → Proc M R} {need : ℕ → List ℕ} {m : ℕ → M} {k : ℕ → List M → Proc M R}
    (h1 : ∀ r < P, f r = .coll (need r) (m r) (k r)) (h2 : ∀ r < P, ∀ i ∈ need r, i < P) (h3 : ∀ r < P, g r = k r ((need r).map m)) : SemReach P f g := by
  intro s hs hf
  obtain ⟨j, hj⟩ := hs.2
  refine ⟨_, Reach.collective (fun r hr => (hf r hr).trans (h1 r hr)) hj h2, ⟨?_, j + 1, ?_⟩, ?_⟩
  · intro a ha b hb t
    simpa [patch, ha, hb] using hs.1 a ha b hb t
  · intro r hr
    simp [patch, hr, hj r hr]
  · intro r hr
    simp [patch, hr, h3 r hr]

/-- The closure of "one message" and "one collective": the ranks about to run `f` get to `g` by a sequence of completed
communications. Sound for strict executions (`PReach.sound`), and compositional. -/
inductive PReach (P : ℕ) : (ℕ → Proc M R) → (ℕ → Proc M R) → Prop
  | refl {f g : ℕ → Proc M R} (h : ∀ r < P, f r = g r) : PReach P f g
  | trans {f g h : ℕ → Proc M R} (h1 : PReach P f g) (h2 : PReach P g h) : PReach P f h
  | transfer {f g : ℕ → Proc M R} {a b t : ℕ} {m : M} {ka : Proc M R} {kb : M → Proc M R} (ha : a < P) (hb : b < P) (hab : a ≠ b)
      (h1 : f a = .send b t m ka) (h2 : f b = .recv a t kb) (h3 : g a = ka) (h4 : g b = kb m) (h5 : ∀ r < P, r ≠ a → r ≠ b → g r = f r) : PReach P f g
  | collective {f g : ℕ → Proc M R} {need : ℕ → List ℕ} {m : ℕ → M} {k : ℕ → List M → Proc M R}
      (h1 : ∀ r < P, f r = .coll (need r) (m r) (k r)) (h2 : ∀ r < P, ∀ i ∈ need r, i < P) (h3 : ∀ r < P, g r = k r ((need r).map m)) : PReach P f g

theorem PReach.sound {f g : ℕ → Proc M R} (h : PReach P f g) : SemReach P f g := by
  induction h with
  | refl h => exact SemReach.refl h
  | trans _ _ i1 i2 => exact i1.trans i2
  | transfer ha hb hab h1 h2 h3 h4 h5 => exact SemReach.transfer ha hb hab h1 h2 h3 h4 h5
  | collective h1 h2 h3 => exact SemReach.collective h1 h2 h3

/-- Sequential composition on every rank. -/
theorem PReach.bind {S : Type} {f g : ℕ → Proc M R} (h : PReach P f g) (k : ℕ → R → Proc M S) :
    PReach P (fun r => (f r).bind (k r)) (fun r => (g r).bind (k r)) := by
  induction h with
  | refl h => exact .refl fun r hr => by rw [h r hr]
  | trans _ _ i1 i2 => exact i1.trans i2
  | transfer ha hb hab h1 h2 h3 h4 h5 =>
    exact .transfer ha hb hab (by rw [h1]; rfl) (by rw [h2]; rfl) (by rw [h3]) (by rw [h4]) fun r hr ha hb => by rw [h5 r hr ha hb]
  | collective h1 h2 h3 => exact .collective (fun r hr => by rw [h1 r hr]; rfl) h2 fun r hr => by rw [h3 r hr]

/-- Messages of another type. -/
theorem PReach.embed {M' : Type} {inj : M → M'} {prj : M' → Option M} (hp : ∀ m, prj (inj m) = some m) {f g : ℕ → Proc M R} (h : PReach P f g) :
    PReach P (fun r => (f r).embed inj prj) (fun r => (g r).embed inj prj) := by
  induction h with
  | refl h => exact .refl fun r hr => by rw [h r hr]
  | trans _ _ i1 i2 => exact i1.trans i2
  | transfer ha hb hab h1 h2 h3 h4 h5 =>
    refine .transfer ha hb hab (by rw [h1]; rfl) (by rw [h2]; rfl) (by rw [h3]) ?_ fun r hr ha hb => by rw [h5 r hr ha hb]
    rw [h4]
    simp only [hp, Option.elim]
  | collective h1 h2 h3 =>
    rename_i need m k
    refine .collective (fun r hr => by rw [h1 r hr]; rfl) h2 fun r hr => ?_
    rw [h3 r hr]
    have : ((need r).map fun i => inj (m i)).mapM prj = some ((need r).map m) := by
      induction need r with
      | nil => rfl
      | cons a l ih =>
        rw [List.map_cons, List.mapM_cons, ih, hp]
        rfl

    simp only [this, Option.elim]

theorem completes_of_preach {prog : ℕ → Proc M R} {out : ℕ → R} (h : PReach P prog fun r => .ret (out r)) : Completes P prog out := by
  obtain ⟨s', ⟨n, hr⟩, hq, hp⟩ := h.sound (init prog) ⟨fun _ _ _ _ _ => by simp [init], 0, fun _ _ => by simp [init]⟩ (fun _ _ => rfl)
  exact completes_of_run hr hp hq.1

/-- If the programs complete, there is an execution in which they do. -/
theorem Completes.exists_final {prog : ℕ → Proc M R} {out : ℕ → R} (h : Completes P prog out) :
    ∃ n s, Run P false n (init prog) s ∧ ∀ r < P, (s r).proc = .ret (out r) := by
  obtain ⟨N, hN⟩ := h
  have key : ∀ d n s, N + 1 - n = d → Run P false n (init prog) s → ∃ n s, Run P false n (init prog) s ∧ ∀ r < P, (s r).proc = .ret (out r) := by
    intro d
    induction d with
    | zero => intro n s hd hs; have := (hN n s hs).1; omega
    | succ d ih =>
      intro n s hd hs
      rcases (hN n s hs).2 with ⟨s', hst⟩ | ⟨hf, -⟩
      · exact ih (n + 1) s' (by omega) (hs.trans (.cons (step_weaken hst) (.nil _)))
      · exact ⟨n, s, hs, hf⟩
  exact key _ 0 _ rfl (.nil _)

/-- The results are unique. -/
theorem Completes.unique {prog : ℕ → Proc M R} {out out' : ℕ → R} (h : Completes P prog out) (h' : Completes P prog out') :
    ∀ r < P, out r = out' r := by
  obtain ⟨n, s, hs, hf⟩ := h.exists_final
  obtain ⟨N, hN⟩ := h'
  rcases (hN n s hs).2 with ⟨s', hst⟩ | ⟨hf', -⟩
  · exact absurd hst (final_no_step fun r hr => ⟨_, hf r hr⟩)
  · intro r hr
    have := (hf r hr).symm.trans (hf' r hr)
    exact Proc.ret.inj this

/-! ## Counting messages -/

/-- Every completed run of the program receives at least `n` messages from `(a, t)`. -/
inductive MinRecv (a t : ℕ) : ℕ → Proc M R → Prop
  | zero (p) : MinRecv a t 0 p
  | raised (n e) : MinRecv a t n (.raised e)
  | send (n d u m k) : MinRecv a t n k → MinRecv a t n (.send d u m k)
  | wait (n d u i k) : MinRecv a t n k → MinRecv a t n (.wait d u i k)
  | recv (n k) : (∀ m, MinRecv a t n (k m)) → MinRecv a t (n + 1) (.recv a t k)
  | other (n b u k) : (b ≠ a ∨ u ≠ t) → (∀ m, MinRecv a t n (k m)) → MinRecv a t n (.recv b u k)
  | coll (n need m k) : (∀ l, MinRecv a t n (k l)) → MinRecv a t n (.coll need m k)
  | inColl (n j need k) : (∀ l, MinRecv a t n (k l)) → MinRecv a t n (.inColl j need k)

/-- The program sends at most `n` messages to `(b, t)`. -/
inductive MaxSend (b t : ℕ) : ℕ → Proc M R → Prop
  | ret (n x) : MaxSend b t n (.ret x)
  | raised (n e) : MaxSend b t n (.raised e)
  | send (n m k) : MaxSend b t n k → MaxSend b t (n + 1) (.send b t m k)
  | other (n d u m k) : (d ≠ b ∨ u ≠ t) → MaxSend b t n k → MaxSend b t n (.send d u m k)
  | wait (n d u i k) : MaxSend b t n k → MaxSend b t n (.wait d u i k)
  | recv (n a u k) : (∀ m, MaxSend b t n (k m)) → MaxSend b t n (.recv a u k)
  | coll (n need m k) : (∀ l, MaxSend b t n (k l)) → MaxSend b t n (.coll need m k)
  | inColl (n j need k) : (∀ l, MaxSend b t n (k l)) → MaxSend b t n (.inColl j need k)

theorem minRecv_step {a t n : ℕ} {bf : Bool} {s : State M R} {r : ℕ} {l : Local M R} (h : next P bf s r = some l)
    (hm : ∃ k, MinRecv a t k (s r).proc ∧ n ≤ (s r).got a t + k) : ∃ k, MinRecv a t k l.proc ∧ n ≤ l.got a t + k := by
  obtain ⟨k, hk, hn⟩ := hm
  unfold next at h
  rcases k with - | k
  · refine ⟨0, .zero _, ?_⟩
    have := (next_ext (P := P) (b := bf) (s := s) (r := r) (l := l) (by unfold next; exact h)).got a t
    omega
  split at h
  · simp at h
  · simp at h
  · rename_i hp
    rw [hp] at hk
    cases hk with
    | send _ _ _ _ _ hk => simp only [Option.some.injEq] at h; subst h; exact ⟨_, .wait _ _ _ _ _ hk, hn⟩
  · rename_i hp
    rw [hp] at hk
    split at h
    · simp at h
    cases hk with
    | wait _ _ _ _ _ hk => simp only [Option.some.injEq] at h; subst h; exact ⟨_, hk, hn⟩
  · rename_i hp
    rw [hp] at hk
    split at h
    · simp only [Option.some.injEq] at h; subst h
      cases hk with
      | recv _ _ hk =>
        refine ⟨_, hk _, ?_⟩
        simp only [bump, and_self, if_true]
        omega
      | other _ _ _ _ hne hk =>
        refine ⟨_, hk _, ?_⟩
        simp only [bump]
        split <;> omega
    · simp at h
  · rename_i hp
    rw [hp] at hk
    cases hk with
    | coll _ _ _ _ hk => simp only [Option.some.injEq] at h; subst h; exact ⟨_, .inColl _ _ _ _ hk, hn⟩
  · rename_i hp
    rw [hp] at hk
    cases hk with
    | inColl _ _ _ _ hk =>
      split at h
      · simp at h
      split at h
      · simp only [Option.some.injEq] at h; subst h; exact ⟨_, hk _, hn⟩
      · simp at h

theorem maxSend_step {b t n : ℕ} {bf : Bool} {s : State M R} {r : ℕ} {l : Local M R} (h : next P bf s r = some l)
    (hm : ∃ k, MaxSend b t k (s r).proc ∧ ((s r).sent b t).length + k ≤ n) : ∃ k, MaxSend b t k l.proc ∧ (l.sent b t).length + k ≤ n := by
  obtain ⟨k, hk, hn⟩ := hm
  unfold next at h
  split at h
  · simp at h
  · simp at h
  · rename_i hp
    rw [hp] at hk
    simp only [Option.some.injEq] at h; subst h
    cases hk with
    | send _ _ _ hk => exact ⟨_, .wait _ _ _ _ _ hk, by simp [push]; omega⟩
    | other _ _ _ _ _ hne hk =>
      refine ⟨_, .wait _ _ _ _ _ hk, ?_⟩
      simp only [push]
      rw [if_neg (by rintro ⟨rfl, rfl⟩; simp at hne)]
      exact hn
  · rename_i hp
    rw [hp] at hk
    split at h
    · simp at h
    cases hk with
    | wait _ _ _ _ _ hk => simp only [Option.some.injEq] at h; subst h; exact ⟨_, hk, hn⟩
  · rename_i hp
    rw [hp] at hk
    split at h
    · simp only [Option.some.injEq] at h; subst h
      cases hk with
      | recv _ _ _ _ hk => exact ⟨_, hk _, hn⟩
    · simp at h
  · rename_i hp
    rw [hp] at hk
    cases hk with
    | coll _ _ _ _ hk => simp only [Option.some.injEq] at h; subst h; exact ⟨_, .inColl _ _ _ _ hk, hn⟩
  · rename_i hp
    rw [hp] at hk
    cases hk with
    | inColl _ _ _ _ hk =>
      split at h
      · simp at h
      split at h
      · simp only [Option.some.injEq] at h; subst h; exact ⟨_, hk _, hn⟩
      · simp at h

/-- Never more messages received than sent. -/
def Sane (s : State M R) : Prop := ∀ a b t, (s b).got a t ≤ ((s a).sent b t).length

theorem sane_step {bf : Bool} {s s' : State M R} (hs : Sane s) (h : Step P bf s s') : Sane s' := by
  obtain ⟨r, -, l, hl, rfl⟩ := h
  have hext := update_ext (next_ext hl)
  intro a b t
  by_cases hb : b = r
  · subst hb
    have hlen := ((hext a).sent b t).length_le
    rw [Function.update_self]
    have h0 := hs a b t
    unfold next at hl
    split at hl
    · simp at hl
    · simp at hl
    · simp only [Option.some.injEq] at hl; subst hl; exact le_trans h0 hlen
    · split at hl
      · simp at hl
      · simp only [Option.some.injEq] at hl; subst hl; exact le_trans h0 hlen
    · rename_i a' t' k hp
      split at hl
      · rename_i m hm
        simp only [Option.some.injEq] at hl; subst hl
        refine le_trans ?_ hlen
        simp only [bump]
        split
        · rename_i e
          obtain ⟨rfl, rfl⟩ := e
          exact (List.getElem?_eq_some_iff.1 hm).1
        · exact h0
      · simp at hl
    · simp only [Option.some.injEq] at hl; subst hl; exact le_trans h0 hlen
    · split at hl
      · simp at hl
      · split at hl
        · simp only [Option.some.injEq] at hl; subst hl; exact le_trans h0 hlen
        · simp at hl
  · rw [Function.update_of_ne hb]
    exact le_trans (hs a b t) ((hext a).sent b t).length_le

theorem run_invariant {bf : Bool} {I : State M R → Prop} (hI : ∀ s s', I s → Step P bf s s' → I s') {n : ℕ} {s s' : State M R}
    (h : Run P bf n s s') (h0 : I s) : I s' := by
  induction h with
  | nil => exact h0
  | cons h1 _ ih => exact ih (hI _ _ h0 h1)

/-- If the program of rank `b` cannot return without receiving `n` messages from `a` and the program of `a` sends fewer to
it, `b` never returns. -/
theorem never_returns {a b t n k : ℕ} {prog : ℕ → Proc M R} (h1 : MinRecv a t n (prog b)) (h2 : MaxSend b t k (prog a)) (hk : k < n)
    {N : ℕ} {s : State M R} (h : Run P false N (init prog) s) (x : R) : (s b).proc ≠ .ret x := by
  have hinv := run_invariant (bf := false) (P := P) (I := fun s => Sane s ∧ (∃ j, MinRecv a t j (s b).proc ∧ n ≤ (s b).got a t + j) ∧
    ∃ j, MaxSend b t j (s a).proc ∧ ((s a).sent b t).length + j ≤ k) (by
      rintro s s' ⟨i1, i2, i3⟩ hst
      refine ⟨sane_step i1 hst, ?_, ?_⟩
      · obtain ⟨r, -, l, hl, rfl⟩ := hst
        by_cases hb : b = r
        · subst hb; simpa using minRecv_step hl i2
        · simpa [hb] using i2
      · obtain ⟨r, -, l, hl, rfl⟩ := hst
        by_cases ha : a = r
        · subst ha; simpa using maxSend_step hl i3
        · simpa [ha] using i3) h
    ⟨fun _ _ _ => by simp [init], ⟨n, h1, by simp⟩, ⟨k, h2, by simp [init]⟩⟩
  obtain ⟨i1, ⟨j, i2, i3⟩, ⟨j', -, i4⟩⟩ := hinv
  intro he
  rw [he] at i2
  cases i2
  have := i1 a b t
  omega

end SM.Mpi
