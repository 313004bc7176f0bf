import Verif.Model.Limgrad
import Mathlib.Tactic.Linarith
import Mathlib.Tactic.Ring
import Mathlib.Algebra.BigOperators.Group.Finset.Basic
import Mathlib.Algebra.Order.BigOperators.Group.Finset

/-! Lemmas about the limiter on an arbitrary neighbour table. -/

set_option linter.unusedSectionVars false

namespace SM.Limgrad

variable {K : Type*} [Field K] [LinearOrder K] [IsStrictOrderedRing K]

/-- Anything preserved by each relaxation is preserved by the whole loop. -/
theorem visit_ind {P : St K → Prop} {step ftol : K} {nb : ℕ → List ℕ} {iter : ℤ} {a : ℕ}
    (h : ∀ s b, b ∈ nb a → P s → P (relax step ftol iter s a b)) :
    ∀ s, P s → P (visit step ftol nb iter s a) := by
  unfold visit
  generalize nb a = l at h
  induction l with
  | nil => intro s hs; simpa using hs
  | cons b l ih =>
    intro s hs
    simp only [List.foldl_cons]
    exact ih (fun s c hc => h s c (List.mem_cons_of_mem _ hc)) _ (h s b (by simp) hs)

theorem sweep_ind {P : St K → Prop} {step ftol : K} {nb : ℕ → List ℕ} {iter : ℤ} {l : List ℕ}
    (h : ∀ s a, a ∈ l → ∀ b, b ∈ nb a → P s → P (relax step ftol iter s a b)) :
    ∀ s, P s → P (sweep step ftol nb iter l s) := by
  unfold sweep
  induction l with
  | nil => intro s hs; simpa using hs
  | cons a l ih =>
    intro s hs
    simp only [List.foldl_cons]
    exact ih (fun s c hc => h s c (List.mem_cons_of_mem _ hc)) _
      (visit_ind (fun s b hb hs => h s a (by simp) b hb hs) s hs)

theorem mem_findIndices {N : ℕ} {m : ℕ → ℤ} {v : ℤ} {i : ℕ} :
    i ∈ findIndices N m v ↔ i < N ∧ m i = v := by
  simp [findIndices]

theorem loop_ind {P : St K → Prop} {step ftol : K} {nb : ℕ → List ℕ} {N : ℕ}
    (h : ∀ iter s a, a < N → ∀ b, b ∈ nb a → P s → P (relax step ftol iter s a b)) :
    ∀ n iter s, P s → P (loop step ftol nb N n iter s).1 := by
  intro n
  induction n with
  | zero => intro iter s hs; simpa [loop] using hs
  | succ n ih =>
    intro iter s hs
    unfold loop
    simp only
    split
    · exact hs
    · apply ih
      apply sweep_ind _ _ hs
      intro s a ha b hb
      exact h iter s a (mem_findIndices.1 ha).1 b hb

/-! ### relax: case analysis -/

theorem relax_cases (step ftol : K) (iter : ℤ) (s : St K) (a b : ℕ) :
    (relax step ftol iter s a b = s ∧ (s.val a > s.val b → s.val a ≤ s.val b + step + ftol) ∧
        (s.val a ≤ s.val b → s.val b ≤ s.val a + step + ftol)) ∨
    (∃ hi lo, ((hi = a ∧ lo = b) ∨ (hi = b ∧ lo = a)) ∧ s.val hi > s.val lo + step + ftol ∧
      relax step ftol iter s a b =
        { val := Function.update s.val hi (s.val lo + step),
          mark := Function.update s.mark hi iter }) := by
  unfold relax
  by_cases h1 : s.val a > s.val b
  · by_cases h2 : s.val a > s.val b + step + ftol
    · right; exact ⟨a, b, Or.inl ⟨rfl, rfl⟩, h2, by simp [h1, h2]⟩
    · left
      refine ⟨by simp [h1, h2], fun _ => not_lt.1 h2, fun h => absurd h1 (not_lt.2 h)⟩
  · by_cases h2 : s.val b > s.val a + step + ftol
    · right; exact ⟨b, a, Or.inr ⟨rfl, rfl⟩, h2, by simp [h1, h2]⟩
    · left
      refine ⟨by simp [h1, h2], fun h => absurd h h1, fun _ => not_lt.1 h2⟩

/-! ### C01 / C04: bounds -/

theorem relax_le {step ftol : K} (hft : 0 ≤ ftol) (iter : ℤ) (s : St K) (a b n : ℕ) :
    (relax step ftol iter s a b).val n ≤ s.val n := by
  rcases relax_cases step ftol iter s a b with ⟨h, -⟩ | ⟨hi, lo, -, hgt, h⟩
  · rw [h]
  · rw [h]
    by_cases hn : n = hi
    · subst hn; simp; linarith
    · simp [Function.update_of_ne hn]

theorem relax_ge {step ftol : K} {N : ℕ} (g : ℕ → K) (iter : ℤ) (s : St K) (a b : ℕ)
    (hg1 : b < N) (hg0 : a < N) (hab : g a ≤ g b + step) (hba : g b ≤ g a + step)
    (h : ∀ n < N, g n ≤ s.val n) : ∀ n < N, g n ≤ (relax step ftol iter s a b).val n := by
  intro n hn
  rcases relax_cases step ftol iter s a b with ⟨h', -⟩ | ⟨hi, lo, hc, hgt, h'⟩
  · rw [h']; exact h n hn
  · rw [h']
    by_cases hnn : n = hi
    · subst hnn
      simp only [Function.update_self]
      rcases hc with ⟨rfl, rfl⟩ | ⟨rfl, rfl⟩
      · exact hab.trans (by have := h lo hg1; linarith)
      · exact hba.trans (by have := h lo hg0; linarith)
    · simp [Function.update_of_ne hnn]; exact h n hn

/-- All members of the neighbour table are nodes. -/
def NbIn (nb : ℕ → List ℕ) (N : ℕ) : Prop := ∀ a < N, ∀ b ∈ nb a, b < N

theorem loop_le {step ftol : K} (hft : 0 ≤ ftol) {nb : ℕ → List ℕ} {N : ℕ} (n : ℕ) (iter : ℤ)
    (s : St K) (m : ℕ) : (loop step ftol nb N n iter s).1.val m ≤ s.val m := by
  exact loop_ind (P := fun s' => s'.val m ≤ s.val m)
    (fun iter s' a _ b _ h => (relax_le hft iter s' a b m).trans h) n iter s le_rfl

theorem loop_ge {step ftol : K} {nb : ℕ → List ℕ} {N : ℕ} (hnb : NbIn nb N) (g : ℕ → K)
    (hg : ∀ a < N, ∀ b ∈ nb a, g a ≤ g b + step ∧ g b ≤ g a + step)
    (n : ℕ) (iter : ℤ) (s : St K) (h : ∀ m < N, g m ≤ s.val m) :
    ∀ m < N, g m ≤ (loop step ftol nb N n iter s).1.val m := by
  exact loop_ind (P := fun s' => ∀ m < N, g m ≤ s'.val m)
    (fun iter s' a ha b hb h => relax_ge g iter s' a b (hnb a ha b hb) ha (hg a ha b hb).1
      (hg a ha b hb).2 h) n iter s h

/-! ### C02: the bound on convergence -/

/-- Violated in the direction `a` above `b`. -/
def Viol (step ftol : K) (s : St K) (a b : ℕ) : Prop := s.val a > s.val b + step + ftol

/-- Every violated edge has an endpoint in `L` or marked `iter`. -/
def Cov (step ftol : K) (nb : ℕ → List ℕ) (N : ℕ) (iter : ℤ) (L : List ℕ) (s : St K) : Prop :=
  ∀ a < N, ∀ b ∈ nb a, Viol step ftol s a b ∨ Viol step ftol s b a →
    a ∈ L ∨ b ∈ L ∨ s.mark a = iter ∨ s.mark b = iter

/-- As `Cov`, with the edges between `c` and members of `Q` also excused. -/
def CovQ (step ftol : K) (nb : ℕ → List ℕ) (N : ℕ) (iter : ℤ) (L : List ℕ) (c : ℕ) (Q : List ℕ)
    (s : St K) : Prop :=
  ∀ a < N, ∀ b ∈ nb a, Viol step ftol s a b ∨ Viol step ftol s b a →
    a ∈ L ∨ b ∈ L ∨ s.mark a = iter ∨ s.mark b = iter ∨ (a = c ∧ b ∈ Q) ∨ (b = c ∧ a ∈ Q)

theorem relax_covQ {step ftol : K} (hst : 0 ≤ step + ftol) {nb : ℕ → List ℕ} {N : ℕ} {iter : ℤ}
    {L : List ℕ} {c q : ℕ} {Q : List ℕ} {s : St K}
    (h : CovQ step ftol nb N iter L c (q :: Q) s) :
    CovQ step ftol nb N iter L c Q (relax step ftol iter s c q) := by
  intro a ha b hb hv
  rcases relax_cases step ftol iter s c q with ⟨hr, hno, hno2⟩ | ⟨hi, lo, hc, hgt, hr⟩
  · rw [hr] at hv ⊢
    have hcq : ¬ (Viol step ftol s c q ∨ Viol step ftol s q c) := by
      unfold Viol
      rintro (h' | h')
      · rcases lt_or_ge (s.val q) (s.val c) with hlt | hle
        · have := hno hlt; linarith
        · linarith
      · rcases lt_or_ge (s.val q) (s.val c) with hlt | hle
        · linarith
        · have := hno2 hle; linarith
    rcases h a ha b hb hv with h | h | h | h | ⟨h1, h2⟩ | ⟨h1, h2⟩
    · exact Or.inl h
    · exact Or.inr (Or.inl h)
    · exact Or.inr (Or.inr (Or.inl h))
    · exact Or.inr (Or.inr (Or.inr (Or.inl h)))
    · rcases List.mem_cons.1 h2 with h2 | h2
      · subst h1; subst h2; exact absurd hv hcq
      · exact Or.inr (Or.inr (Or.inr (Or.inr (Or.inl ⟨h1, h2⟩))))
    · rcases List.mem_cons.1 h2 with h2 | h2
      · subst h1; subst h2; exact absurd hv.symm hcq
      · exact Or.inr (Or.inr (Or.inr (Or.inr (Or.inr ⟨h1, h2⟩))))
  · rw [hr] at hv ⊢
    by_cases haI : a = hi
    · subst haI; exact Or.inr (Or.inr (Or.inl (by simp)))
    · by_cases hbI : b = hi
      · subst hbI; exact Or.inr (Or.inr (Or.inr (Or.inl (by simp))))
      · have hv' : Viol step ftol s a b ∨ Viol step ftol s b a := by
          unfold Viol at hv ⊢
          simpa only [Function.update_of_ne haI, Function.update_of_ne hbI] using hv
        simp only [Function.update_of_ne haI, Function.update_of_ne hbI]
        rcases h a ha b hb hv' with h | h | h | h | ⟨h1, h2⟩ | ⟨h1, h2⟩
        · exact Or.inl h
        · exact Or.inr (Or.inl h)
        · exact Or.inr (Or.inr (Or.inl h))
        · exact Or.inr (Or.inr (Or.inr (Or.inl h)))
        · rcases List.mem_cons.1 h2 with h2 | h2
          · exfalso; subst h1; subst h2; rcases hc with ⟨h, -⟩ | ⟨h, -⟩
            · exact haI h.symm
            · exact hbI h.symm
          · exact Or.inr (Or.inr (Or.inr (Or.inr (Or.inl ⟨h1, h2⟩))))
        · rcases List.mem_cons.1 h2 with h2 | h2
          · exfalso; subst h1; subst h2; rcases hc with ⟨h, -⟩ | ⟨h, -⟩
            · exact hbI h.symm
            · exact haI h.symm
          · exact Or.inr (Or.inr (Or.inr (Or.inr (Or.inr ⟨h1, h2⟩))))

theorem visit_cov {step ftol : K} (hst : 0 ≤ step + ftol) {nb : ℕ → List ℕ} {N : ℕ}
    (hsym : ∀ a < N, ∀ b ∈ nb a, a ∈ nb b) {iter : ℤ}
    {L : List ℕ} {c : ℕ} {s : St K} (h : Cov step ftol nb N iter (c :: L) s) :
    Cov step ftol nb N iter L (visit step ftol nb iter s c) := by
  have h0 : CovQ step ftol nb N iter L c (nb c) s := by
    intro a ha b hb hv
    rcases h a ha b hb hv with h | h | h | h
    · rcases List.mem_cons.1 h with rfl | h
      · tauto
      · tauto
    · rcases List.mem_cons.1 h with rfl | h
      · have := hsym a ha b hb; tauto
      · tauto
    · tauto
    · tauto
  have key : ∀ (Q : List ℕ) (s : St K), CovQ step ftol nb N iter L c Q s →
      CovQ step ftol nb N iter L c [] (Q.foldl (fun s b => relax step ftol iter s c b) s) := by
    intro Q
    induction Q with
    | nil => intro s h; exact h
    | cons q Q ih => intro s h; exact ih _ (relax_covQ hst h)
  have := key _ _ h0
  intro a ha b hb hv
  rcases this a ha b hb hv with h | h | h | h | ⟨_, h⟩ | ⟨_, h⟩
  · tauto
  · tauto
  · tauto
  · tauto
  · simp at h
  · simp at h

theorem sweep_cov {step ftol : K} (hst : 0 ≤ step + ftol) {nb : ℕ → List ℕ} {N : ℕ}
    (hsym : ∀ a < N, ∀ b ∈ nb a, a ∈ nb b) {iter : ℤ} :
    ∀ {L : List ℕ} {s : St K}, Cov step ftol nb N iter L s →
    Cov step ftol nb N iter [] (sweep step ftol nb iter L s) := by
  intro L
  induction L with
  | nil => intro s h; simpa [sweep] using h
  | cons c L ih => intro s h; exact ih (visit_cov hst hsym h)

theorem loop_conv {step ftol : K} (hst : 0 ≤ step + ftol) {nb : ℕ → List ℕ} {N : ℕ}
    (hnb : NbIn nb N) (hsym : ∀ a < N, ∀ b ∈ nb a, a ∈ nb b) :
    ∀ (n : ℕ) (iter : ℤ) (s : St K), Cov step ftol nb N (iter - 1) [] s →
    (loop step ftol nb N n iter s).2 = true →
    ∀ a < N, ∀ b ∈ nb a, (loop step ftol nb N n iter s).1.val a ≤
      (loop step ftol nb N n iter s).1.val b + step + ftol := by
  intro n
  induction n with
  | zero => intro iter s _ h; simp [loop] at h
  | succ n ih =>
    intro iter s hs
    unfold loop
    simp only
    split
    · rename_i hemp
      intro _ a ha b hb
      by_contra hcon
      have hnil : findIndices N s.mark (iter - 1) = [] := by simpa using hemp
      rcases hs a ha b hb (Or.inl (not_le.1 hcon)) with h | h | h | h
      · simp at h
      · simp at h
      · have : a ∈ findIndices N s.mark (iter - 1) := mem_findIndices.2 ⟨ha, h⟩
        rw [hnil] at this; simp at this
      · have : b ∈ findIndices N s.mark (iter - 1) := mem_findIndices.2 ⟨hnb a ha b hb, h⟩
        rw [hnil] at this; simp at this
    · apply ih
      have : iter + 1 - 1 = iter := by ring
      rw [this]
      apply sweep_cov hst hsym
      intro a ha b hb hv
      rcases hs a ha b hb hv with h | h | h | h
      · simp at h
      · simp at h
      · left; exact mem_findIndices.2 ⟨ha, h⟩
      · right; left; exact mem_findIndices.2 ⟨hnb a ha b hb, h⟩

/-! ### C05: graded fields are fixed -/

theorem relax_id {step ftol : K} {iter : ℤ} {s : St K} {a b : ℕ}
    (h1 : s.val a ≤ s.val b + step + ftol) (h2 : s.val b ≤ s.val a + step + ftol) :
    relax step ftol iter s a b = s := by
  rcases relax_cases step ftol iter s a b with ⟨h, -⟩ | ⟨hi, lo, hc, hgt, h⟩
  · exact h
  · exfalso
    rcases hc with ⟨rfl, rfl⟩ | ⟨rfl, rfl⟩
    · exact absurd hgt (not_lt.2 h1)
    · exact absurd hgt (not_lt.2 h2)

theorem loop_id {step ftol : K} {nb : ℕ → List ℕ} {N : ℕ} (s : St K)
    (h : ∀ a < N, ∀ b ∈ nb a, s.val a ≤ s.val b + step + ftol ∧ s.val b ≤ s.val a + step + ftol)
    (n : ℕ) (iter : ℤ) : (loop step ftol nb N n iter s).1 = s := by
  refine loop_ind (P := fun s' => s' = s) ?_ n iter s rfl
  rintro iter s' a ha b hb rfl
  exact relax_id (h a ha b hb).1 (h a ha b hb).2

/-! ### minElement -/

theorem minElement_le {N : ℕ} {f : ℕ → K} {i : ℕ} (hi : i < N) : minElement N f ≤ f i := by
  unfold minElement
  have key : ∀ (l : List ℕ) (m : K), l.foldl (fun m i => min m (f i)) m ≤ m ∧
      ∀ j ∈ l, l.foldl (fun m i => min m (f i)) m ≤ f j := by
    intro l
    induction l with
    | nil => intro m; simp
    | cons a l ih =>
      intro m
      simp only [List.foldl_cons]
      refine ⟨(ih _).1.trans (min_le_left _ _), ?_⟩
      intro j hj
      rcases List.mem_cons.1 hj with rfl | hj
      · exact (ih _).1.trans (min_le_right _ _)
      · exact (ih _).2 j hj
  exact (key _ _).2 i (by simpa using hi)

theorem le_minElement {N : ℕ} (hN : 0 < N) {f : ℕ → K} {m : K} (h : ∀ i < N, m ≤ f i) :
    m ≤ minElement N f := by
  unfold minElement
  have key : ∀ (l : List ℕ) (x : K), m ≤ x → (∀ j ∈ l, m ≤ f j) →
      m ≤ l.foldl (fun m i => min m (f i)) x := by
    intro l
    induction l with
    | nil => intro x hx _; simpa using hx
    | cons a l ih =>
      intro x hx hl
      simp only [List.foldl_cons]
      exact ih _ (le_min hx (hl a (by simp))) (fun j hj => hl j (List.mem_cons_of_mem _ hj))
  exact key _ _ (h 0 hN) (fun j hj => h j (by simpa using hj))

theorem exists_minElement {N : ℕ} (hN : 0 < N) (f : ℕ → K) : ∃ i < N, minElement N f = f i := by
  unfold minElement
  have key : ∀ (l : List ℕ) (x : K), (l.foldl (fun m i => min m (f i)) x = x) ∨
      ∃ j ∈ l, l.foldl (fun m i => min m (f i)) x = f j := by
    intro l
    induction l with
    | nil => intro x; simp
    | cons a l ih =>
      intro x
      simp only [List.foldl_cons]
      rcases ih (min x (f a)) with h | ⟨j, hj, h⟩
      · rcases min_choice x (f a) with h' | h'
        · left; rw [h, h']
        · right; exact ⟨a, by simp, by rw [h, h']⟩
      · right; exact ⟨j, List.mem_cons_of_mem _ hj, h⟩
  rcases key (List.range N) (f 0) with h | ⟨j, hj, h⟩
  · exact ⟨0, hN, h⟩
  · exact ⟨j, by simpa using hj, h⟩

/-! ### C03: termination of the sweeps -/

/-- Sum of the field. -/
def total (N : ℕ) (f : ℕ → K) : K := ∑ i ∈ Finset.range N, f i

theorem total_update {N : ℕ} (f : ℕ → K) {a : ℕ} (ha : a < N) (x : K) :
    total N (Function.update f a x) = total N f - f a + x := by
  unfold total
  have h1 := Finset.add_sum_erase (Finset.range N) f (Finset.mem_range.2 ha)
  have h2 := Finset.add_sum_erase (Finset.range N) (Function.update f a x) (Finset.mem_range.2 ha)
  have h3 : ∑ i ∈ (Finset.range N).erase a, Function.update f a x i =
      ∑ i ∈ (Finset.range N).erase a, f i :=
    Finset.sum_congr rfl (fun i hi => Function.update_of_ne (Finset.ne_of_mem_erase hi) _ _)
  rw [Function.update_self, h3] at h2
  linarith

/-- A relaxation either changes nothing or lowers the total by more than `ftol`. -/
theorem relax_total {step ftol : K} {iter : ℤ} {s : St K} {N a b : ℕ} (ha : a < N) (hb : b < N) :
    relax step ftol iter s a b = s ∨
    total N (relax step ftol iter s a b).val < total N s.val - ftol := by
  rcases relax_cases step ftol iter s a b with ⟨h, -⟩ | ⟨hi, lo, hc, hgt, h⟩
  · left; exact h
  · right
    have hhi : hi < N := by rcases hc with ⟨rfl, -⟩ | ⟨rfl, -⟩ <;> assumption
    rw [h]; simp only
    rw [total_update _ hhi]; linarith

theorem sweep_total {step ftol : K} (hft : 0 ≤ ftol) {nb : ℕ → List ℕ} {N : ℕ} (hnb : NbIn nb N)
    {iter : ℤ} {L : List ℕ} (hL : ∀ a ∈ L, a < N) (s : St K) :
    sweep step ftol nb iter L s = s ∨
    total N (sweep step ftol nb iter L s).val < total N s.val - ftol := by
  refine sweep_ind (P := fun s' => s' = s ∨ total N s'.val < total N s.val - ftol) ?_ s (Or.inl rfl)
  intro s' a ha b hb h
  have ha' := hL a ha
  have hb' := hnb a ha' b hb
  rcases relax_total (step := step) (ftol := ftol) (iter := iter) (s := s') ha' hb' with h' | h'
  · rw [h']; exact h
  · right
    rcases h with rfl | h
    · exact h'
    · linarith

/-- If the initial marks are all below the current sweep number, a sweep that changes
nothing leaves no active node, and the loop stops at the next test. -/
theorem loop_stops {step ftol : K} (hft : 0 ≤ ftol) {nb : ℕ → List ℕ} {N : ℕ} (hnb : NbIn nb N)
    (m : K) (hm : ∀ (iter : ℤ) (s : St K) (a b : ℕ), a < N → b < N → (∀ i < N, m ≤ s.val i) →
      ∀ i < N, m ≤ (relax step ftol iter s a b).val i) :
    ∀ (n : ℕ) (iter : ℤ) (s : St K), (∀ i, s.mark i < iter) → (∀ i < N, m ≤ s.val i) →
    total N s.val - N * m < ((n : K) - 1) * ftol → (loop step ftol nb N n iter s).2 = true := by
  have hlow : ∀ s : St K, (∀ i < N, m ≤ s.val i) → (N : K) * m ≤ total N s.val := by
    intro s hs
    unfold total
    have := Finset.card_nsmul_le_sum (Finset.range N) s.val m (fun i hi => hs i (Finset.mem_range.1 hi))
    simpa using this
  intro n
  induction n with
  | zero =>
    intro iter s _ hs h
    exfalso
    have := hlow s hs
    simp at h
    linarith
  | succ n ih =>
    intro iter s hmk hs h
    unfold loop
    simp only
    split
    · rfl
    · rename_i hne
      set L := findIndices N s.mark (iter - 1) with hLdef
      have hL : ∀ a ∈ L, a < N := fun a ha => (mem_findIndices.1 ha).1
      have hmk' : ∀ i, (sweep step ftol nb iter L s).mark i < iter + 1 := by
        refine sweep_ind (P := fun s' => ∀ i, s'.mark i < iter + 1) ?_ s
          (fun i => by have := hmk i; omega)
        intro s' a _ b _ hs' i
        rcases relax_cases step ftol iter s' a b with ⟨h, -⟩ | ⟨hi, lo, hc, hgt, h⟩
        · rw [h]; exact hs' i
        · rw [h]; simp only
          by_cases hii : i = hi
          · subst hii; simp
          · rw [Function.update_of_ne hii]; exact hs' i
      have hs' : ∀ i < N, m ≤ (sweep step ftol nb iter L s).val i := by
        refine sweep_ind (P := fun s' => ∀ i < N, m ≤ s'.val i) ?_ s hs
        intro s' a ha b hb h
        exact hm iter s' a b (hL a ha) (hnb a (hL a ha) b hb) h
      rcases sweep_total (step := step) hft hnb (iter := iter) hL s with heq | hlt
      · rw [heq]
        have hemp : findIndices N s.mark (iter + 1 - 1) = [] := by
          rw [List.eq_nil_iff_forall_not_mem]
          intro i hi
          have := (mem_findIndices.1 hi).2
          have := hmk i
          omega
        cases n with
        | zero =>
          exfalso
          have := hlow s hs
          simp at h
          linarith
        | succ n =>
          unfold loop; simp only [hemp]; rfl
      · apply ih _ _ hmk' hs'
        push_cast at h
        push_cast
        linarith

end SM.Limgrad
