import Verif.Lemmas.Limgrad
import Mathlib.Tactic.Linarith
import Mathlib.Tactic.Ring

/-!
# How many sweeps the limiter needs

A value written in sweep `t` (counted from 0) is at least `m + (t + 1) * step`: it is derived from a value
written in the previous or in the same sweep. Since values only decrease, the number of sweeps is bounded
by the range of the data divided by the step.
-/

namespace SM.Limgrad

variable {K : Type*} [Field K] [LinearOrder K] [IsStrictOrderedRing K]

/-- The node still has to be compared with its neighbours. -/
def Pend (iter : ℤ) (L : List ℕ) (s : St K) (x : ℕ) : Prop := x ∈ L ∨ s.mark x = iter

/-- Invariant while node `c` is visited: `Q` are the neighbours not yet compared, `L` the nodes still to
visit, `B` the lower bound of the values written in the previous sweep, `M` an upper bound of all values. -/
structure SInv (step ftol B M : K) (nb : ℕ → List ℕ) (N : ℕ) (iter : ℤ) (L : List ℕ) (c : ℕ) (Q : List ℕ)
    (s : St K) : Prop where
  ok : ∀ b < N, ¬ Pend iter L s b → ∀ a ∈ nb b, ¬ (b = c ∧ a ∈ Q) → s.val a ≤ s.val b + step + ftol
  low : ∀ x < N, x ∈ L ∨ x = c → B ≤ s.val x
  new : ∀ x < N, s.mark x = iter → B + step ≤ s.val x
  top : ∀ x < N, s.val x ≤ M
  wit : (∃ x < N, s.mark x = iter) → B + step + ftol < M

theorem SInv.relax {step ftol B M : K} (hstep : 0 ≤ step) (hft : 0 ≤ ftol) {nb : ℕ → List ℕ} {N : ℕ}
    (hnb : NbIn nb N) (hsym : ∀ a < N, ∀ b ∈ nb a, a ∈ nb b) {iter : ℤ} {L : List ℕ} {c q : ℕ} {Q : List ℕ}
    {s : St K} (hc : c < N) (hq : q ∈ nb c) (h : SInv step ftol B M nb N iter L c (q :: Q) s) :
    SInv step ftol B M nb N iter L c Q (relax step ftol iter s c q) := by
  have hqN : q < N := hnb c hc q hq
  rcases relax_cases step ftol iter s c q with ⟨hr, hno, hno2⟩ | ⟨hi, lo, hcase, hgt, hr⟩
  · rw [hr]
    refine ⟨fun b hb hp a ha hex => ?_, h.low, h.new, h.top, h.wit⟩
    by_cases hbq : b = c ∧ a = q
    · obtain ⟨rfl, rfl⟩ := hbq
      rcases lt_or_ge (s.val a) (s.val b) with hlt | hle
      · linarith
      · exact hno2 hle
    · refine h.ok b hb hp a ha ?_
      rintro ⟨rfl, hm⟩
      rcases List.mem_cons.1 hm with rfl | hm
      · exact hbq ⟨rfl, rfl⟩
      · exact hex ⟨rfl, hm⟩
  · have hne : hi ≠ lo := by rintro rfl; linarith
    have hhiN : hi < N := by rcases hcase with ⟨rfl, -⟩ | ⟨rfl, -⟩ <;> assumption
    have hloB : B ≤ s.val lo := by
      rcases hcase with ⟨rfl, rfl⟩ | ⟨rfl, rfl⟩
      · by_cases hp : Pend iter L s lo
        · rcases hp with hp | hp
          · exact h.low lo hqN (Or.inl hp)
          · have := h.new lo hqN hp; linarith
        · have := h.ok lo hqN hp hi (hsym hi hc lo hq) (fun e => hne e.1.symm)
          linarith
      · exact h.low lo hc (Or.inr rfl)
    rw [hr]
    have hmark : ∀ x, x ≠ hi → Function.update s.mark hi iter x = s.mark x := fun x hx => by
      rw [Function.update_of_ne hx]
    have hval : ∀ x, x ≠ hi → Function.update s.val hi (s.val lo + step) x = s.val x := fun x hx => by
      rw [Function.update_of_ne hx]
    have hself : Function.update s.val hi (s.val lo + step) hi = s.val lo + step := by simp
    refine ⟨fun b hb hp a ha hex => ?_, fun x hx hl => ?_, fun x hx hm => ?_, fun x hx => ?_, fun _ => ?_⟩
    · simp only [Pend] at hp
      have hbhi : b ≠ hi := by
        rintro rfl
        exact hp (Or.inr (by simp))
      simp only [hmark b hbhi] at hp
      simp only []
      rw [hval b hbhi]
      by_cases hahi : a = hi
      · subst hahi
        rw [hself]
        by_cases hbl : b = lo
        · subst hbl; linarith
        · have := h.ok b hb hp a ha (by
            rintro ⟨rfl, hm⟩
            rcases hcase with ⟨rfl, -⟩ | ⟨rfl, rfl⟩
            · exact hbhi rfl
            · exact hbl rfl)
          linarith
      · rw [hval a hahi]
        refine h.ok b hb hp a ha ?_
        rintro ⟨rfl, hm⟩
        rcases List.mem_cons.1 hm with rfl | hm
        · rcases hcase with ⟨e, -⟩ | ⟨e, -⟩
          · exact hbhi e.symm
          · exact hahi e.symm
        · exact hex ⟨rfl, hm⟩
    · simp only []
      by_cases hxh : x = hi
      · subst hxh; rw [hself]; linarith
      · rw [hval x hxh]; exact h.low x hx hl
    · simp only [] at hm ⊢
      by_cases hxh : x = hi
      · subst hxh; rw [hself]; linarith
      · rw [hmark x hxh] at hm; rw [hval x hxh]; exact h.new x hx hm
    · simp only []
      by_cases hxh : x = hi
      · subst hxh; rw [hself]; have := h.top x hx; linarith
      · rw [hval x hxh]; exact h.top x hx
    · have := h.top hi hhiN; linarith

theorem SInv.visit {step ftol B M : K} (hstep : 0 ≤ step) (hft : 0 ≤ ftol) {nb : ℕ → List ℕ} {N : ℕ}
    (hnb : NbIn nb N) (hsym : ∀ a < N, ∀ b ∈ nb a, a ∈ nb b) {iter : ℤ} {L : List ℕ} {c c' : ℕ}
    {s : St K} (hc : c < N) (h : SInv step ftol B M nb N iter (c :: L) c' [] s) (hc' : B ≤ s.val c) :
    SInv step ftol B M nb N iter L c [] (visit step ftol nb iter s c) := by
  have h0 : SInv step ftol B M nb N iter L c (nb c) s := by
    refine ⟨fun b hb hp a ha hex => ?_, fun x hx hl => ?_, h.new, h.top, h.wit⟩
    · by_cases hbc : b = c
      · subst hbc; exact absurd ⟨rfl, ha⟩ hex
      · refine h.ok b hb ?_ a ha (by simp)
        rintro (hm | hm)
        · rcases List.mem_cons.1 hm with e | hm
          · exact hbc e
          · exact hp (Or.inl hm)
        · exact hp (Or.inr hm)
    · rcases hl with hl | rfl
      · exact h.low x hx (Or.inl (List.mem_cons_of_mem _ hl))
      · exact hc'
  have key : ∀ (Q : List ℕ), (∀ q ∈ Q, q ∈ nb c) → ∀ s : St K, SInv step ftol B M nb N iter L c Q s →
      SInv step ftol B M nb N iter L c [] (Q.foldl (fun s b => Limgrad.relax step ftol iter s c b) s) := by
    intro Q
    induction Q with
    | nil => intro _ s h; exact h
    | cons q Q ih =>
      intro hQ s h
      exact ih (fun q' h' => hQ q' (List.mem_cons_of_mem _ h')) _
        (SInv.relax hstep hft hnb hsym hc (hQ q (by simp)) h)
  exact key (nb c) (fun q h => h) s h0

theorem SInv.sweep {step ftol B M : K} (hstep : 0 ≤ step) (hft : 0 ≤ ftol) {nb : ℕ → List ℕ} {N : ℕ}
    (hnb : NbIn nb N) (hsym : ∀ a < N, ∀ b ∈ nb a, a ∈ nb b) {iter : ℤ} :
    ∀ (L : List ℕ) (c : ℕ) (s : St K), (∀ a ∈ L, a < N) → SInv step ftol B M nb N iter L c [] s →
      ∃ c', SInv step ftol B M nb N iter [] c' [] (sweep step ftol nb iter L s)
  | [], c, s, _, h => ⟨c, h⟩
  | a :: L, c, s, hL, h =>
    SInv.sweep hstep hft hnb hsym L a _ (fun x hx => hL x (List.mem_cons_of_mem _ hx))
      (SInv.visit hstep hft hnb hsym (hL a (by simp)) h (h.low a (hL a (by simp)) (Or.inl (by simp))))

/-- What holds before sweep `t`. -/
structure Before (m step ftol M : K) (nb : ℕ → List ℕ) (N t : ℕ) (s : St K) : Prop where
  ok : ∀ b < N, s.mark b ≠ (t : ℤ) - 1 → ∀ a ∈ nb b, s.val a ≤ s.val b + step + ftol
  low : ∀ x < N, s.mark x = (t : ℤ) - 1 → m + t * step ≤ s.val x
  marks : ∀ x < N, s.mark x < t
  top : ∀ x < N, s.val x ≤ M
  wit : (∃ x < N, s.mark x = (t : ℤ) - 1) → t = 0 ∨ m + t * step + ftol < M

theorem relax_mark {step ftol : K} {iter : ℤ} {s : St K} {a b : ℕ} {u : ℤ} (h : ∀ x, s.mark x < u)
    (hu : iter < u) : ∀ x, (relax step ftol iter s a b).mark x < u := by
  intro x
  rcases relax_cases step ftol iter s a b with ⟨hr, -⟩ | ⟨hi, lo, -, -, hr⟩
  · rw [hr]; exact h x
  · rw [hr]
    simp only []
    by_cases hx : x = hi
    · subst hx; simpa using hu
    · rw [Function.update_of_ne hx]; exact h x

theorem Before.step {m step ftol M : K} (hstep : 0 ≤ step) (hft : 0 ≤ ftol) {nb : ℕ → List ℕ} {N t : ℕ}
    (hnb : NbIn nb N) (hsym : ∀ a < N, ∀ b ∈ nb a, a ∈ nb b) {s : St K}
    (h : Before m step ftol M nb N t s) (hall : ∀ x, s.mark x < t)
    (hne : (findIndices N s.mark ((t : ℤ) - 1)) ≠ []) :
    Before m step ftol M nb N (t + 1) (sweep step ftol nb t (findIndices N s.mark ((t : ℤ) - 1)) s) ∧
      ∀ x, (sweep step ftol nb t (findIndices N s.mark ((t : ℤ) - 1)) s).mark x < ((t + 1 : ℕ) : ℤ) := by
  obtain ⟨c, l, hcl⟩ := List.exists_cons_of_ne_nil hne
  have hmemL : ∀ a ∈ findIndices N s.mark ((t : ℤ) - 1), a < N := fun a ha => (mem_findIndices.1 ha).1
  have hcL : c ∈ findIndices N s.mark ((t : ℤ) - 1) := by rw [hcl]; simp
  have hlow : ∀ x < N, x ∈ findIndices N s.mark ((t : ℤ) - 1) → m + t * step ≤ s.val x :=
    fun x hx hm => h.low x hx (mem_findIndices.1 hm).2
  have h0 : SInv step ftol (m + t * step) M nb N t (findIndices N s.mark ((t : ℤ) - 1)) c [] s := by
    refine ⟨fun b hb hp a ha _ => ?_, fun x hx hl => ?_, fun x hx hm => ?_, h.top, fun ⟨x, hx, hm⟩ => ?_⟩
    · refine h.ok b hb ?_ a ha
      intro e
      exact hp (Or.inl (mem_findIndices.2 ⟨hb, e⟩))
    · rcases hl with hl | rfl
      · exact hlow x hx hl
      · exact hlow x hx hcL
    · have := hall x; omega
    · have := hall x; omega
  obtain ⟨c', h1⟩ := SInv.sweep hstep hft hnb hsym _ c s hmemL h0
  have hall' : ∀ x, (sweep step ftol nb t (findIndices N s.mark ((t : ℤ) - 1)) s).mark x < ((t + 1 : ℕ) : ℤ) := by
    refine sweep_ind (P := fun s' : St K => ∀ x, s'.mark x < ((t + 1 : ℕ) : ℤ)) ?_ s ?_
    · intro s' a _ b _ hs'
      exact relax_mark hs' (by push_cast; omega)
    · intro x; have := hall x; push_cast; omega
  have e1 : (((t + 1 : ℕ) : ℤ) - 1) = (t : ℤ) := by push_cast; ring
  have e2 : m + ((t + 1 : ℕ) : K) * step = m + t * step + step := by push_cast; ring
  refine ⟨⟨fun b hb hm a ha => ?_, fun x hx hm => ?_, fun x _ => hall' x, h1.top, fun ⟨x, hx, hm⟩ => ?_⟩, hall'⟩
  · rw [e1] at hm
    refine h1.ok b hb ?_ a ha (by simp)
    rintro (hp | hp)
    · simp at hp
    · exact hm hp
  · rw [e1] at hm; rw [e2]; exact h1.new x hx hm
  · rw [e1] at hm; right; rw [e2]; exact h1.wit ⟨x, hx, hm⟩

/-- If the loop uses up all its sweeps, the data range exceeds one step per sweep. -/
theorem loop_not_stopped {m step ftol M : K} (hstep : 0 ≤ step) (hft : 0 ≤ ftol) {nb : ℕ → List ℕ} {N : ℕ}
    (hnb : NbIn nb N) (hsym : ∀ a < N, ∀ b ∈ nb a, a ∈ nb b) :
    ∀ (n t : ℕ) (s : St K), Before m step ftol M nb N t s → (∀ x, s.mark x < t) →
      (loop step ftol nb N (n + 1) t s).2 = false → t + n = 0 ∨ m + ((t + n : ℕ) : K) * step + ftol < M
  | 0, t, s, h, _, hf => by
    unfold loop at hf
    simp only at hf
    split at hf
    · simp at hf
    · rename_i he
      have hne : findIndices N s.mark ((t : ℤ) - 1) ≠ [] := by simpa using he
      obtain ⟨c, l, hcl⟩ := List.exists_cons_of_ne_nil hne
      have hcL : c ∈ findIndices N s.mark ((t : ℤ) - 1) := by rw [hcl]; simp
      obtain ⟨hx, hm⟩ := mem_findIndices.1 hcL
      have := h.wit ⟨c, hx, hm⟩
      simpa using this
  | n + 1, t, s, h, hall, hf => by
    unfold loop at hf
    simp only at hf
    split at hf
    · simp at hf
    · rename_i he
      have hne : findIndices N s.mark ((t : ℤ) - 1) ≠ [] := by simpa using he
      obtain ⟨h', hall'⟩ := Before.step hstep hft hnb hsym h hall hne
      have hf' : (loop step ftol nb N (n + 1) ((t + 1 : ℕ) : ℤ)
          (sweep step ftol nb t (findIndices N s.mark ((t : ℤ) - 1)) s)).2 = false := by
        rw [show ((t + 1 : ℕ) : ℤ) = (t : ℤ) + 1 by push_cast; ring]
        exact hf
      have := loop_not_stopped hstep hft hnb hsym n (t + 1) _ h' hall' hf'
      rwa [show t + 1 + n = t + (n + 1) by omega] at this

end SM.Limgrad
