import Verif.Lemmas.Limgrad
import Verif.Lemmas.LimgradSweeps
import Verif.Lemmas.LimgradGrid
import Mathlib.Algebra.Order.Archimedean.Basic
import Mathlib.Tactic.NormNum
import Mathlib.Tactic.FinCases

/-!
# C01 - C06: the gradient limiter

Specification vocabulary (independent of the model):
`Node` is an array position, `InGrid` says it is inside an array of shape
`(d0,d1,d2)`, `Adjacent` that two positions differ by one along exactly one axis.
-/

set_option linter.unusedSectionVars false

namespace SM.Limgrad

abbrev Node := ℕ × ℕ × ℕ

def InGrid (d0 d1 d2 : ℕ) (p : Node) : Prop := p.1 < d0 ∧ p.2.1 < d1 ∧ p.2.2 < d2

/-- `q` is the next node after `p` along one axis. -/
def Succ (p q : Node) : Prop :=
  q = (p.1 + 1, p.2.1, p.2.2) ∨ q = (p.1, p.2.1 + 1, p.2.2) ∨ q = (p.1, p.2.1, p.2.2 + 1)

def Adjacent (p q : Node) : Prop := Succ p q ∨ Succ q p

/-- Value of a 3-D array at a node. -/
def at3 {K : Type*} (A : ℕ → ℕ → ℕ → K) (p : Node) : K := A p.1 p.2.1 p.2.2

/-- `m` is the minimum of the array `A` over the grid. -/
def IsMin {K : Type*} [LE K] (d0 d1 d2 : ℕ) (A : ℕ → ℕ → ℕ → K) (m : K) : Prop :=
  (∀ p, InGrid d0 d1 d2 p → m ≤ at3 A p) ∧ ∃ p, InGrid d0 d1 d2 p ∧ at3 A p = m

/-- Neighbouring sizes differ by at most `bound`. -/
def GradedBy {K : Type*} [Field K] [LinearOrder K] (d0 d1 d2 : ℕ) (bound : K)
    (A : ℕ → ℕ → ℕ → K) : Prop :=
  ∀ p q, InGrid d0 d1 d2 p → InGrid d0 d1 d2 q → Adjacent p q → |at3 A p - at3 A q| ≤ bound

variable {K : Type*} [Field K] [LinearOrder K] [IsStrictOrderedRing K]

/-! ### bridging lemmas -/

theorem adjacent_nbrs {d0 d1 d2 : ℕ} {p q : Node} (hp : InGrid d0 d1 d2 p) (hq : InGrid d0 d1 d2 q)
    (h : Adjacent p q) : lin d0 d1 q.1 q.2.1 q.2.2 ∈ nbrs d0 d1 d2 (lin d0 d1 p.1 p.2.1 p.2.2) := by
  obtain ⟨i, j, k⟩ := p
  obtain ⟨hi, hj, hk⟩ := hp
  obtain ⟨i', j', k'⟩ := q
  obtain ⟨hi', hj', hk'⟩ := hq
  simp only [] at hi hj hk hi' hj' hk'
  simp only [nbrs_eq hi hj hk]
  simp only [Adjacent, Succ, Prod.mk.injEq] at h
  rcases h with (⟨rfl, rfl, rfl⟩ | ⟨rfl, rfl, rfl⟩ | ⟨rfl, rfl, rfl⟩) |
    (⟨rfl, rfl, rfl⟩ | ⟨rfl, rfl, rfl⟩ | ⟨rfl, rfl, rfl⟩)
  · have : min (i + 1) (d0 - 1) = i + 1 := by omega
    simp [this]
  · have : min (j + 1) (d1 - 1) = j + 1 := by omega
    simp [this]
  · have : min (k + 1) (d2 - 1) = k + 1 := by omega
    simp [this]
  · simp
  · simp
  · simp

/-- Every stencil partner is the node itself or an adjacent grid node. -/
theorem nbrs_adjacent {d0 d1 d2 : ℕ} {p : Node} (hp : InGrid d0 d1 d2 p) {b : ℕ}
    (hb : b ∈ nbrs d0 d1 d2 (lin d0 d1 p.1 p.2.1 p.2.2)) :
    ∃ q, InGrid d0 d1 d2 q ∧ b = lin d0 d1 q.1 q.2.1 q.2.2 ∧ (q = p ∨ Adjacent p q) := by
  obtain ⟨i, j, k⟩ := p
  obtain ⟨hi, hj, hk⟩ := hp
  simp only [] at hi hj hk hb
  rw [nbrs_eq hi hj hk] at hb
  simp only [List.mem_cons, List.not_mem_nil, or_false] at hb
  rcases hb with h | h | h | h | h | h
  · refine ⟨(i, min (j + 1) (d1 - 1), k), ⟨hi, by simp only []; omega, hk⟩, h, ?_⟩
    rcases (by omega : min (j + 1) (d1 - 1) = j ∨ min (j + 1) (d1 - 1) = j + 1) with e | e
    · left; rw [e]
    · right; rw [e]; left; simp [Succ]
  · refine ⟨(i, j - 1, k), ⟨hi, by simp only []; omega, hk⟩, h, ?_⟩
    rcases Nat.eq_zero_or_pos j with e | e
    · left; simp [e]
    · right; right; right; left; ext <;> simp; omega
  · refine ⟨(min (i + 1) (d0 - 1), j, k), ⟨by simp only []; omega, hj, hk⟩, h, ?_⟩
    rcases (by omega : min (i + 1) (d0 - 1) = i ∨ min (i + 1) (d0 - 1) = i + 1) with e | e
    · left; rw [e]
    · right; rw [e]; left; simp [Succ]
  · refine ⟨(i - 1, j, k), ⟨by simp only []; omega, hj, hk⟩, h, ?_⟩
    rcases Nat.eq_zero_or_pos i with e | e
    · left; simp [e]
    · right; right; left; ext <;> simp; omega
  · refine ⟨(i, j, min (k + 1) (d2 - 1)), ⟨hi, hj, by simp only []; omega⟩, h, ?_⟩
    rcases (by omega : min (k + 1) (d2 - 1) = k ∨ min (k + 1) (d2 - 1) = k + 1) with e | e
    · left; rw [e]
    · right; rw [e]; left; simp [Succ]
  · refine ⟨(i, j, k - 1), ⟨hi, hj, by simp only []; omega⟩, h, ?_⟩
    rcases Nat.eq_zero_or_pos k with e | e
    · left; simp [e]
    · right; right; right; right; ext <;> simp; omega

theorem nbIn_nbrs (d0 d1 d2 : ℕ) : NbIn (nbrs d0 d1 d2) (d0 * d1 * d2) := by
  intro a ha b hb
  obtain ⟨i, j, k, hi, hj, hk, rfl⟩ := exists_lin ha
  obtain ⟨q, hq, rfl, -⟩ := nbrs_adjacent (p := (i, j, k)) ⟨hi, hj, hk⟩ hb
  exact lin_lt hq.1 hq.2.1 hq.2.2

/-- A clamped node is in its own stencil; hence the stencil relation is symmetric. -/
theorem nbrs_symm (d0 d1 d2 : ℕ) :
    ∀ a < d0 * d1 * d2, ∀ b ∈ nbrs d0 d1 d2 a, a ∈ nbrs d0 d1 d2 b := by
  intro a ha b hb
  obtain ⟨i, j, k, hi, hj, hk, rfl⟩ := exists_lin ha
  have hb' := hb
  obtain ⟨q, hq, rfl, rfl | h⟩ := nbrs_adjacent (p := (i, j, k)) ⟨hi, hj, hk⟩ hb
  · exact hb'
  · exact adjacent_nbrs (q := (i, j, k)) hq ⟨hi, hj, hk⟩ h.symm

theorem isMin_minElement {d0 d1 d2 : ℕ} (hN : 0 < d0 * d1 * d2) (A : ℕ → ℕ → ℕ → K) :
    IsMin d0 d1 d2 A (minElement (d0 * d1 * d2) (flattenF d0 d1 A)) := by
  constructor
  · rintro ⟨i, j, k⟩ ⟨hi, hj, hk⟩
    have := minElement_le (f := flattenF d0 d1 A) (lin_lt hi hj hk)
    rwa [flatten_lin hi hj] at this
  · obtain ⟨n, hn, h⟩ := exists_minElement hN (flattenF d0 d1 A)
    obtain ⟨i, j, k, hi, hj, hk, rfl⟩ := exists_lin hn
    exact ⟨(i, j, k), ⟨hi, hj, hk⟩, by rw [h, flatten_lin hi hj]; rfl⟩

theorem IsMin.eq {d0 d1 d2 : ℕ} {A : ℕ → ℕ → ℕ → K} {m m' : K} (h : IsMin d0 d1 d2 A m)
    (h' : IsMin d0 d1 d2 A m') : m = m' := by
  obtain ⟨p, hp, rfl⟩ := h.2
  obtain ⟨q, hq, rfl⟩ := h'.2
  exact le_antisymm (h.1 q hq) (h'.1 p hp)

theorem IsMin.pos_card {d0 d1 d2 : ℕ} {A : ℕ → ℕ → ℕ → K} {m : K} (h : IsMin d0 d1 d2 A m) :
    0 < d0 * d1 * d2 := by
  obtain ⟨p, hp, -⟩ := h.2
  have := lin_lt hp.1 hp.2.1 hp.2.2
  omega

theorem IsMin.flat {d0 d1 d2 : ℕ} {A : ℕ → ℕ → ℕ → K} {m : K} (h : IsMin d0 d1 d2 A m) :
    minElement (d0 * d1 * d2) (flattenF d0 d1 A) = m :=
  (isMin_minElement h.pos_card A).eq h

/-- The shape of a successful call. -/
theorem enforce_ok {imax d0 d1 d2 : ℕ} {seps grade elen : K} {A R : ℕ → ℕ → ℕ → K} {c : Bool}
    (h : enforceGradation imax d0 d1 d2 seps A grade elen = .ok (R, c)) :
    (grade = 0 ∧ R = A ∧ c = true) ∨ (0 < grade ∧
      R = reshapeF d0 d1 (cLimgrad d0 d1 d2 seps elen grade imax (flattenF d0 d1 A)).1 ∧
      c = (cLimgrad d0 d1 d2 seps elen grade imax (flattenF d0 d1 A)).2) := by
  unfold enforceGradation at h
  split_ifs at h with h1 h2
  · simp only [Except.ok.injEq, Prod.mk.injEq] at h
    exact Or.inl ⟨h1, h.1.symm, h.2.symm⟩
  · simp only [Except.ok.injEq, Prod.mk.injEq] at h
    exact Or.inr ⟨lt_of_le_of_ne (not_lt.1 h2) (Ne.symm h1), h.1.symm, h.2.symm⟩

/-! ### C01 -/

/-- **C01.** For every array of non-negative sizes, every non-negative spacing and every
sweep cap: each resulting size is at most the input size at the same node and at least the
smallest input size. -/
theorem C01_gradation_only_refines {imax d0 d1 d2 : ℕ} {seps grade elen m : K}
    {A R : ℕ → ℕ → ℕ → K} {c : Bool} (hs : 0 ≤ seps) (he : 0 ≤ elen) (hm : IsMin d0 d1 d2 A m)
    (hm0 : 0 ≤ m) (h : enforceGradation imax d0 d1 d2 seps A grade elen = .ok (R, c)) :
    ∀ p, InGrid d0 d1 d2 p → m ≤ at3 R p ∧ at3 R p ≤ at3 A p := by
  rintro ⟨i, j, k⟩ ⟨hi, hj, hk⟩
  rcases enforce_ok h with ⟨-, rfl, -⟩ | ⟨hg, rfl, -⟩
  · exact ⟨hm.1 _ ⟨hi, hj, hk⟩, le_rfl⟩
  · simp only at hi hj hk
    have hft : 0 ≤ minElement (d0 * d1 * d2) (flattenF d0 d1 A) * seps := by
      rw [hm.flat]; exact mul_nonneg hm0 hs
    constructor
    · refine loop_ge (nbIn_nbrs d0 d1 d2) (fun _ => m) ?_ imax 0 _ ?_ _ (lin_lt hi hj hk)
      · intro a _ b _
        have := mul_nonneg he hg.le
        constructor <;> linarith
      · intro n hn
        obtain ⟨i, j, k, hi, hj, hk, rfl⟩ := exists_lin hn
        simp only [flatten_lin hi hj]
        exact hm.1 (i, j, k) ⟨hi, hj, hk⟩
    · have := loop_le hft (step := elen * grade) (nb := nbrs d0 d1 d2) (N := d0 * d1 * d2) imax 0
        { val := flattenF d0 d1 A, mark := fun _ => -1 } (lin d0 d1 i j k)
      simp only [flatten_lin hi hj] at this
      exact this

/-- The call fails exactly for a negative grade. -/
theorem C01_rejects_negative {imax d0 d1 d2 : ℕ} {seps grade elen : K} {A : ℕ → ℕ → ℕ → K} :
    enforceGradation imax d0 d1 d2 seps A grade elen = .error .gradeNegative ↔ grade < 0 := by
  unfold enforceGradation
  split_ifs with h1 h2
  · simp [h1]
  · simp [h2]
  · simp [h2]

/-! ### C02 -/

/-- **C02.** If the sweeps end because no node is active, neighbouring sizes differ by at
most `elen * grade` plus the tolerance `ftol = m * seps`. -/
theorem C02_bound_on_convergence {imax d0 d1 d2 : ℕ} {seps grade elen m : K}
    {A R : ℕ → ℕ → ℕ → K} (hs : 0 ≤ seps) (he : 0 ≤ elen) (hm : IsMin d0 d1 d2 A m)
    (hm0 : 0 ≤ m) (hg : grade ≠ 0)
    (h : enforceGradation imax d0 d1 d2 seps A grade elen = .ok (R, true)) :
    GradedBy d0 d1 d2 (elen * grade + m * seps) R := by
  rcases enforce_ok h with ⟨h0, -, -⟩ | ⟨hg, rfl, hc⟩
  · exact absurd h0 hg
  · have hst : 0 ≤ elen * grade + minElement (d0 * d1 * d2) (flattenF d0 d1 A) * seps := by
      rw [hm.flat]; have := mul_nonneg hm0 hs; have := mul_nonneg he hg.le; linarith
    have key := loop_conv hst (nbIn_nbrs d0 d1 d2) (nbrs_symm d0 d1 d2) imax 0
      { val := flattenF d0 d1 A, mark := fun _ => -1 } (by
        intro a _ b _ _; right; right; left; rfl) hc.symm
    rw [hm.flat] at key
    have one : ∀ p q, InGrid d0 d1 d2 p → InGrid d0 d1 d2 q → Adjacent p q →
        at3 (reshapeF d0 d1 (cLimgrad d0 d1 d2 seps elen grade imax (flattenF d0 d1 A)).1) p ≤
        at3 (reshapeF d0 d1 (cLimgrad d0 d1 d2 seps elen grade imax (flattenF d0 d1 A)).1) q +
          elen * grade + m * seps := by
      intro p q hp hq hpq
      have := key _ (lin_lt hp.1 hp.2.1 hp.2.2) _ (adjacent_nbrs hp hq hpq)
      simp only [at3, reshape_lin, cLimgrad, cLimgradOn, hm.flat]
      exact this
    intro p q hp hq hpq
    have h1 := one p q hp hq hpq
    have h2 := one q p hq hp hpq.symm
    rw [abs_le]; constructor <;> linarith

/-! ### C03 -/

/-- The quantity `sum of (A p - m)` over the grid that bounds the number of sweeps. -/
def excess (d0 d1 d2 : ℕ) (m : K) (A : ℕ → ℕ → ℕ → K) : K :=
  ∑ n ∈ Finset.range (d0 * d1 * d2), (A (n % d0) (n / d0 % d1) (n / (d0 * d1)) - m)

/-- **C03 (a).** With a cap larger than `1 + excess / ftol` the sweeps end by themselves,
so the gradation bound holds. -/
theorem C03_converges {imax d0 d1 d2 : ℕ} {seps grade elen m : K}
    {A : ℕ → ℕ → ℕ → K} (hs : 0 < seps) (he : 0 ≤ elen) (hm : IsMin d0 d1 d2 A m)
    (hm0 : 0 < m) (hg : 0 < grade)
    (hcap : excess d0 d1 d2 m A / (m * seps) + 1 < imax) :
    ∃ R, enforceGradation imax d0 d1 d2 seps A grade elen = .ok (R, true) ∧
      GradedBy d0 d1 d2 (elen * grade + m * seps) R := by
  have hft : 0 < m * seps := mul_pos hm0 hs
  have hst : 0 ≤ elen * grade := mul_nonneg he hg.le
  have hflag : (cLimgrad d0 d1 d2 seps elen grade imax (flattenF d0 d1 A)).2 = true := by
    unfold cLimgrad cLimgradOn
    simp only [hm.flat]
    refine loop_stops hft.le (nbIn_nbrs d0 d1 d2) m ?_ imax 0 _ (by simp) ?_ ?_
    · intro iter s a b ha hb h
      exact relax_ge (fun _ => m) iter s a b hb ha (by linarith) (by linarith) h
    · intro n hn
      obtain ⟨i, j, k, hi, hj, hk, rfl⟩ := exists_lin hn
      simp only [flatten_lin hi hj]
      exact hm.1 (i, j, k) ⟨hi, hj, hk⟩
    · have h1 : excess d0 d1 d2 m A < ((imax : K) - 1) * (m * seps) := by
        rw [← div_lt_iff₀ hft]; linarith
      have h2 : excess d0 d1 d2 m A = total (d0 * d1 * d2) (flattenF d0 d1 A) -
          ((d0 * d1 * d2 : ℕ) : K) * m := by
        unfold excess total flattenF
        rw [Finset.sum_sub_distrib]; simp
      rw [h2] at h1
      exact h1
  have hcall : enforceGradation imax d0 d1 d2 seps A grade elen =
      .ok (reshapeF d0 d1 (cLimgrad d0 d1 d2 seps elen grade imax (flattenF d0 d1 A)).1, true) := by
    unfold enforceGradation
    rw [if_neg hg.ne', if_neg (not_lt.2 hg.le)]
    simp only [hflag]
  exact ⟨_, hcall, C02_bound_on_convergence hs.le he hm hm0.le hg.ne' hcall⟩

/-- **C03 (b).** For every field with positive minimum there is a sufficient cap. -/
theorem C03_some_cap_suffices [Archimedean K] {d0 d1 d2 : ℕ} {seps grade elen m : K}
    {A : ℕ → ℕ → ℕ → K} (hs : 0 < seps) (he : 0 ≤ elen) (hm : IsMin d0 d1 d2 A m)
    (hm0 : 0 < m) (hg : 0 < grade) :
    ∃ n0, ∀ imax ≥ n0, ∃ R, enforceGradation imax d0 d1 d2 seps A grade elen = .ok (R, true) ∧
      GradedBy d0 d1 d2 (elen * grade + m * seps) R := by
  obtain ⟨n, hn⟩ := exists_nat_gt (excess d0 d1 d2 m A / (m * seps) + 1)
  refine ⟨n, fun imax h => C03_converges hs he hm hm0 hg (lt_of_lt_of_le hn ?_)⟩
  exact_mod_cast h

/-- **C03 (c).** The sweeps needed are bounded by the range of the sizes in units of the step: if the
largest size exceeds the smallest by at most `imax - 1` steps of `elen * grade`, the limiter ends before
the cap and the gradation bound holds. -/
theorem C03_sweeps {imax d0 d1 d2 : ℕ} {seps grade elen m M : K} {A : ℕ → ℕ → ℕ → K} (hs : 0 ≤ seps)
    (he : 0 ≤ elen) (hm : IsMin d0 d1 d2 A m) (hm0 : 0 ≤ m) (hg : 0 < grade) (hi : 2 ≤ imax)
    (hM : ∀ p, InGrid d0 d1 d2 p → at3 A p ≤ M)
    (hcap : M - m ≤ ((imax - 1 : ℕ) : K) * (elen * grade) + m * seps) :
    ∃ R, enforceGradation imax d0 d1 d2 seps A grade elen = .ok (R, true) ∧
      GradedBy d0 d1 d2 (elen * grade + m * seps) R := by
  have hft : 0 ≤ m * seps := mul_nonneg hm0 hs
  have hst : 0 ≤ elen * grade := mul_nonneg he hg.le
  have hflag : (cLimgrad d0 d1 d2 seps elen grade imax (flattenF d0 d1 A)).2 = true := by
    by_contra hcon
    have hf : (cLimgrad d0 d1 d2 seps elen grade imax (flattenF d0 d1 A)).2 = false := by simpa using hcon
    unfold cLimgrad cLimgradOn at hf
    simp only [hm.flat] at hf
    obtain ⟨n, rfl⟩ : ∃ n, imax = n + 1 := ⟨imax - 1, by omega⟩
    have hv : ∀ x < d0 * d1 * d2, m ≤ flattenF d0 d1 A x ∧ flattenF d0 d1 A x ≤ M := by
      intro x hx
      obtain ⟨i, j, k, hi, hj, hk, rfl⟩ := exists_lin hx
      rw [flatten_lin hi hj]
      exact ⟨hm.1 (i, j, k) ⟨hi, hj, hk⟩, hM (i, j, k) ⟨hi, hj, hk⟩⟩
    have hb : Before m (elen * grade) (m * seps) M (nbrs d0 d1 d2) (d0 * d1 * d2) 0
        { val := flattenF d0 d1 A, mark := fun _ => -1 } := by
      refine ⟨fun b _ hne => absurd (by simp) hne, fun x hx _ => ?_, fun x _ => by simp,
        fun x hx => (hv x hx).2, fun _ => Or.inl rfl⟩
      have := (hv x hx).1
      simpa using this
    have key := loop_not_stopped hst hft (nbIn_nbrs d0 d1 d2) (nbrs_symm d0 d1 d2) n 0 _ hb (by simp)
      (by simpa using hf)
    rw [Nat.zero_add] at key
    rcases key with h | h
    · omega
    · rw [Nat.add_sub_cancel] at hcap
      linarith
  have hcall : enforceGradation imax d0 d1 d2 seps A grade elen =
      .ok (reshapeF d0 d1 (cLimgrad d0 d1 d2 seps elen grade imax (flattenF d0 d1 A)).1, true) := by
    unfold enforceGradation
    rw [if_neg hg.ne', if_neg (not_lt.2 hg.le)]
    simp only [hflag]
  exact ⟨_, hcall, C02_bound_on_convergence hs he hm hm0 hg.ne' hcall⟩

/-- **C03, the shipped cap.** The code's 10000 sweeps suffice whenever the sizes span at most 9999 steps of
`elen * grade`. -/
theorem C03_shipped {d0 d1 d2 : ℕ} {seps grade elen m M : K} {A : ℕ → ℕ → ℕ → K} (hs : 0 ≤ seps)
    (he : 0 ≤ elen) (hm : IsMin d0 d1 d2 A m) (hm0 : 0 ≤ m) (hg : 0 < grade)
    (hM : ∀ p, InGrid d0 d1 d2 p → at3 A p ≤ M) (hcap : M - m ≤ 9999 * (elen * grade)) :
    ∃ R, enforceGradation shippedCap d0 d1 d2 seps A grade elen = .ok (R, true) ∧
      GradedBy d0 d1 d2 (elen * grade + m * seps) R := by
  refine C03_sweeps hs he hm hm0 hg (by norm_num [shippedCap]) hM (hcap.trans ?_)
  have : ((shippedCap - 1 : ℕ) : K) = 9999 := by norm_num [shippedCap]
  rw [this]
  have := mul_nonneg hm0 hs
  linarith

/-! #### The negative half: any fixed cap is too small for some input -/

section chain

variable {step ftol : K} {n : ℕ}

theorem nbrs_chain {a : ℕ} (ha : a < n) :
    nbrs n 1 1 a = [a, a, min (a + 1) (n - 1), a - 1, a, a] := by
  have h := nbrs_eq (d0 := n) (d1 := 1) (d2 := 1) (i := a) (j := 0) (k := 0) ha (by omega) (by omega)
  simpa [lin] using h

theorem relax_off {iter : ℤ} {s : St K} {a b x : ℕ} (ha : x ≠ a) (hb : x ≠ b) :
    (relax step ftol iter s a b).val x = s.val x := by
  rcases relax_cases step ftol iter s a b with ⟨h, -⟩ | ⟨hi, lo, hc, -, h⟩
  · rw [h]
  · rw [h]
    rcases hc with ⟨rfl, -⟩ | ⟨rfl, -⟩
    · simp [Function.update_of_ne ha]
    · simp [Function.update_of_ne hb]

theorem relax_eqval (hst : 0 ≤ step + ftol) {iter : ℤ} {s : St K} {a b : ℕ}
    (h : s.val a = s.val b) : relax step ftol iter s a b = s :=
  relax_id (by linarith) (by linarith)

theorem visit_chain (hst : 0 ≤ step + ftol) {iter : ℤ} {s : St K} {a : ℕ} (ha : a < n) :
    visit step ftol (nbrs n 1 1) iter s a =
      relax step ftol iter (relax step ftol iter s a (min (a + 1) (n - 1))) a (a - 1) := by
  unfold visit
  rw [nbrs_chain ha]
  have e : ∀ s : St K, relax step ftol iter s a a = s := fun s => relax_eqval hst rfl
  simp only [List.foldl_cons, List.foldl_nil, e]

/-- Nodes `≥ m` never touch nodes below `m - 1`. -/
theorem sweep_high {iter : ℤ} {m : ℕ} {B : K} (hst : 0 ≤ step + ftol) :
    ∀ (l : List ℕ) (s : St K), (∀ a ∈ l, a < n) → (∀ a ∈ l, m ≤ a) → (∀ x, x + 2 ≤ m → s.val x = B) →
    ∀ x, x + 2 ≤ m → (sweep step ftol (nbrs n 1 1) iter l s).val x = B := by
  intro l
  induction l with
  | nil => intro s _ _ h x hx; simpa [sweep] using h x hx
  | cons a l ih =>
    intro s hl hm h
    apply ih _ (fun b hb => hl b (List.mem_cons_of_mem _ hb))
      (fun b hb => hm b (List.mem_cons_of_mem _ hb))
    intro x hx
    have ham := hm a (by simp)
    have han := hl a (by simp)
    rw [visit_chain hst han, relax_off (by omega) (by omega), relax_off (by omega) (by omega)]
    exact h x hx

/-- One sweep over an increasing list of active nodes moves the front by at most two nodes. -/
theorem sweep_front {iter : ℤ} {m : ℕ} {B : K} (hst : 0 ≤ step + ftol) (hmn : m < n) :
    ∀ (l : List ℕ) (s : St K), (∀ a ∈ l, a < n) → l.Pairwise (· < ·) →
    (∀ x, x < m → s.val x = B) →
    ∀ x, x + 2 < m → (sweep step ftol (nbrs n 1 1) iter l s).val x = B := by
  intro l
  induction l with
  | nil => intro s _ _ h x hx; simpa [sweep] using h x (by omega)
  | cons a l ih =>
    intro s hl hp h
    rw [List.pairwise_cons] at hp
    have han := hl a (by simp)
    have hl' : ∀ b ∈ l, b < n := fun b hb => hl b (List.mem_cons_of_mem _ hb)
    rcases (by omega : a + 2 ≤ m ∨ a + 1 = m ∨ m ≤ a) with h1 | h1 | h1
    · have hv : visit step ftol (nbrs n 1 1) iter s a = s := by
        rw [visit_chain hst han, relax_eqval hst (s := s), relax_eqval hst]
        · rw [h a (by omega), h (a - 1) (by omega)]
        · rw [h a (by omega), h _ (by omega)]
      intro x hx
      have := ih (visit step ftol (nbrs n 1 1) iter s a) hl' hp.2 (by rw [hv]; exact h) x hx
      simpa [sweep] using this
    · intro x hx
      have := sweep_high (iter := iter) (m := m - 1) (B := B) hst l
        (visit step ftol (nbrs n 1 1) iter s a) hl'
        (fun b hb => by have := hp.1 b hb; omega) (by
          intro y hy
          rw [visit_chain hst han, relax_off (by omega) (by omega), relax_off (by omega) (by omega)]
          exact h y (by omega)) x (by omega)
      simpa [sweep] using this
    · intro x hx
      exact sweep_high (m := m) (B := B) hst (a :: l) s hl (by
        intro b hb
        rcases List.mem_cons.1 hb with rfl | hb
        · exact h1
        · have := hp.1 b hb; omega) (fun y hy => h y (by omega)) x (by omega)

theorem loop_front (hst : 0 ≤ step + ftol) {B : K} :
    ∀ (fuel : ℕ) (iter : ℤ) (s : St K) (m : ℕ), m < n → (∀ x, x < m → s.val x = B) →
    ∀ x, x + 2 * fuel < m → (loop step ftol (nbrs n 1 1) n fuel iter s).1.val x = B := by
  intro fuel
  induction fuel with
  | zero => intro iter s m _ h x hx; simpa [loop] using h x (by omega)
  | succ f ih =>
    intro iter s m hm h x hx
    unfold loop
    simp only
    split
    · exact h x (by omega)
    · apply ih _ _ (m - 2) (by omega) _ x (by omega)
      intro y hy
      apply sweep_front hst hm _ _ _ _ h y (by omega)
      · intro a ha; exact (mem_findIndices.1 ha).1
      · exact List.Pairwise.filter _ List.pairwise_lt_range

end chain

/-- Telescoping. -/
theorem telescope {f : ℕ → K} {b : K} : ∀ n, (∀ i < n, f i ≤ f (i + 1) + b) → f 0 ≤ f n + n * b := by
  intro n
  induction n with
  | zero => intro _; simp
  | succ n ih =>
    intro h
    have h1 := ih (fun i hi => h i (by omega))
    have h2 := h n (by omega)
    push_cast
    linarith

/-- The witness field: `n = 2*imax+2` nodes in a row, size `big` everywhere except size 1
at the last node. -/
def badField (imax : ℕ) (big : K) : ℕ → ℕ → ℕ → K :=
  fun i _ _ => if i = 2 * imax + 1 then 1 else big

/-- **C03 (c), negation.** For every fixed cap (in particular the shipped 10000) and every
spacing, grade and tolerance factor, there is a field with minimum 1 whose limited version
violates the gradation bound: the cap is too small. -/
theorem C03_fixed_cap_insufficient (imax : ℕ) {seps grade elen : K} (hs : 0 ≤ seps) (he : 0 ≤ elen)
    (hg : 0 < grade) :
    ∃ (d0 d1 d2 : ℕ) (A R : ℕ → ℕ → ℕ → K) (c : Bool), IsMin d0 d1 d2 A 1 ∧
      enforceGradation imax d0 d1 d2 seps A grade elen = .ok (R, c) ∧
      ¬ GradedBy d0 d1 d2 (elen * grade + 1 * seps) R := by
  set big : K := 2 + (2 * imax + 1) * (elen * grade + seps) with hbig
  have hst0 : 0 ≤ elen * grade := mul_nonneg he hg.le
  have hbig1 : 1 ≤ big := by
    have : (0 : K) ≤ (2 * imax + 1) * (elen * grade + seps) := by positivity
    linarith
  set n := 2 * imax + 2 with hn
  set A := badField imax big with hA
  have hmin : IsMin n 1 1 A 1 := by
    constructor
    · rintro ⟨i, j, k⟩ -
      simp only [at3, A, badField]
      split_ifs
      · exact le_rfl
      · exact hbig1
    · refine ⟨(2 * imax + 1, 0, 0), ⟨by simp only []; omega, by simp, by simp⟩, ?_⟩
      simp [at3, A, badField]
  have hcall : enforceGradation imax n 1 1 seps A grade elen =
      .ok (reshapeF n 1 (cLimgrad n 1 1 seps elen grade imax (flattenF n 1 A)).1,
        (cLimgrad n 1 1 seps elen grade imax (flattenF n 1 A)).2) := by
    unfold enforceGradation
    rw [if_neg hg.ne', if_neg (not_lt.2 hg.le)]
  refine ⟨n, 1, 1, A, _, _, hmin, hcall, ?_⟩
  intro hgr
  set R := reshapeF n 1 (cLimgrad n 1 1 seps elen grade imax (flattenF n 1 A)).1 with hR
  have h0 : R 0 0 0 = big := by
    have hst : 0 ≤ elen * grade + 1 * seps := by linarith
    have hflat := hmin.flat
    simp only [hR, reshapeF, cLimgrad, cLimgradOn, hflat]
    have hN : n * 1 * 1 = n := by omega
    rw [hN]
    refine loop_front (n := n) hst (B := big) imax 0 _ (2 * imax + 1) (by omega) ?_ _ (by omega)
    intro x hx
    have : x % n = x := Nat.mod_eq_of_lt (by omega)
    have hne : x ≠ 2 * imax + 1 := by omega
    simp [flattenF, A, badField, this, hne]
  have hlast : R (2 * imax + 1) 0 0 ≤ 1 := by
    have := (C01_gradation_only_refines hs he hmin zero_le_one hcall (2 * imax + 1, 0, 0)
      ⟨by simp only []; omega, by simp, by simp⟩).2
    simpa [at3, A, badField] using this
  have tele := telescope (f := fun i => R i 0 0) (b := elen * grade + 1 * seps) (2 * imax + 1) (by
    intro i hi
    have := hgr (i, 0, 0) (i + 1, 0, 0) ⟨by simp only []; omega, by simp, by simp⟩
      ⟨by simp only []; omega, by simp, by simp⟩ (Or.inl (Or.inl rfl))
    have := (abs_le.1 this).2
    simp only [at3] at this
    linarith)
  simp only [h0] at tele
  push_cast at tele
  rw [hbig] at tele
  nlinarith

/-- The shipped cap. -/
theorem C03_shipped_cap_insufficient {seps grade elen : K} (hs : 0 ≤ seps) (he : 0 ≤ elen)
    (hg : 0 < grade) :
    ∃ (d0 d1 d2 : ℕ) (A R : ℕ → ℕ → ℕ → K) (c : Bool), IsMin d0 d1 d2 A 1 ∧
      enforceGradation shippedCap d0 d1 d2 seps A grade elen = .ok (R, c) ∧
      ¬ GradedBy d0 d1 d2 (elen * grade + 1 * seps) R :=
  C03_fixed_cap_insufficient shippedCap hs he hg

/-! ### C04 -/

/-- **C04.** The limited field dominates every field `G` below the input that satisfies the
gradation bound `elen * grade` itself; for every cap, converged or not. -/
theorem C04_never_over_refines {imax d0 d1 d2 : ℕ} {seps grade elen : K}
    {A R G : ℕ → ℕ → ℕ → K} {c : Bool}
    (hGA : ∀ p, InGrid d0 d1 d2 p → at3 G p ≤ at3 A p)
    (hG : GradedBy d0 d1 d2 (elen * grade) G) (he : 0 ≤ elen)
    (h : enforceGradation imax d0 d1 d2 seps A grade elen = .ok (R, c)) :
    ∀ p, InGrid d0 d1 d2 p → at3 G p ≤ at3 R p := by
  rintro ⟨i, j, k⟩ ⟨hi, hj, hk⟩
  simp only at hi hj hk
  rcases enforce_ok h with ⟨-, rfl, -⟩ | ⟨hg, rfl, -⟩
  · exact hGA _ ⟨hi, hj, hk⟩
  · have key := loop_ge (step := elen * grade)
      (ftol := minElement (d0 * d1 * d2) (flattenF d0 d1 A) * seps)
      (nbIn_nbrs d0 d1 d2) (flattenF d0 d1 G) ?_ imax 0
      { val := flattenF d0 d1 A, mark := fun _ => -1 } ?_ _ (lin_lt hi hj hk)
    · rw [flatten_lin hi hj] at key
      exact key
    · intro a ha b hb
      obtain ⟨i, j, k, hi, hj, hk, rfl⟩ := exists_lin ha
      obtain ⟨q, hq, rfl, hpq⟩ := nbrs_adjacent (p := (i, j, k)) ⟨hi, hj, hk⟩ hb
      rw [flatten_lin hi hj, flatten_lin hq.1 hq.2.1]
      have hst : 0 ≤ elen * grade := mul_nonneg he hg.le
      rcases hpq with rfl | hpq
      · constructor <;> linarith
      · have := abs_le.1 (hG (i, j, k) q ⟨hi, hj, hk⟩ hq hpq)
        simp only [at3] at this
        constructor <;> linarith
    · intro n hn
      obtain ⟨i, j, k, hi, hj, hk, rfl⟩ := exists_lin hn
      simp only [flatten_lin hi hj]
      exact hGA (i, j, k) ⟨hi, hj, hk⟩

/-! ### C05 -/

/-- **C05 (a).** A field already within the bound is returned unchanged. -/
theorem C05_identity_on_graded {imax d0 d1 d2 : ℕ} {seps grade elen m : K}
    {A R : ℕ → ℕ → ℕ → K} {c : Bool} (hs : 0 ≤ seps) (he : 0 ≤ elen) (hm : IsMin d0 d1 d2 A m)
    (hm0 : 0 ≤ m) (hA : GradedBy d0 d1 d2 (elen * grade + m * seps) A)
    (h : enforceGradation imax d0 d1 d2 seps A grade elen = .ok (R, c)) :
    ∀ p, InGrid d0 d1 d2 p → at3 R p = at3 A p := by
  rintro ⟨i, j, k⟩ ⟨hi, hj, hk⟩
  simp only at hi hj hk
  rcases enforce_ok h with ⟨-, rfl, -⟩ | ⟨hg, rfl, -⟩
  · rfl
  · have key := loop_id (step := elen * grade) (ftol := m * seps) (nb := nbrs d0 d1 d2)
      (N := d0 * d1 * d2) { val := flattenF d0 d1 A, mark := fun _ => -1 } ?_ imax 0
    · simp only [at3, reshape_lin, cLimgrad, cLimgradOn, hm.flat, key, flatten_lin hi hj]
    · intro a ha b hb
      obtain ⟨i, j, k, hi, hj, hk, rfl⟩ := exists_lin ha
      obtain ⟨q, hq, rfl, hpq⟩ := nbrs_adjacent (p := (i, j, k)) ⟨hi, hj, hk⟩ hb
      simp only [flatten_lin hi hj, flatten_lin hq.1 hq.2.1]
      have h1 : 0 ≤ elen * grade := mul_nonneg he hg.le
      have h2 : 0 ≤ m * seps := mul_nonneg hm0 hs
      rcases hpq with rfl | hpq
      · constructor <;> linarith
      · have := abs_le.1 (hA (i, j, k) q ⟨hi, hj, hk⟩ hq hpq)
        simp only [at3] at this
        constructor <;> linarith

/-- **C05 (b).** Limiting a converged result again changes nothing. -/
theorem C05_idempotent {imax imax' d0 d1 d2 : ℕ} {seps grade elen m : K}
    {A R R' : ℕ → ℕ → ℕ → K} {c' : Bool} (hs : 0 ≤ seps) (he : 0 ≤ elen)
    (hm : IsMin d0 d1 d2 A m) (hm0 : 0 ≤ m)
    (h : enforceGradation imax d0 d1 d2 seps A grade elen = .ok (R, true))
    (h' : enforceGradation imax' d0 d1 d2 seps R grade elen = .ok (R', c')) :
    ∀ p, InGrid d0 d1 d2 p → at3 R' p = at3 R p := by
  by_cases hg : grade = 0
  · rcases enforce_ok h' with ⟨-, rfl, -⟩ | ⟨hg', -, -⟩
    · intro p _; rfl
    · exact absurd hg hg'.ne'
  · have hR := C02_bound_on_convergence hs he hm hm0 hg h
    have hb := C01_gradation_only_refines hs he hm hm0 h
    have hmR : IsMin d0 d1 d2 R m := by
      refine ⟨fun p hp => (hb p hp).1, ?_⟩
      obtain ⟨p, hp, hpm⟩ := hm.2
      exact ⟨p, hp, le_antisymm (hpm ▸ (hb p hp).2) (hb p hp).1⟩
    exact C05_identity_on_graded hs he hmR hm0 hR h'

/-! ### C06 -/

/-- **C06 (a).** `ind2sub`/`sub2ind` are mutually inverse bijections between `1..d0*d1*d2`
and the 1-based subscripts of the grid. -/
theorem C06_bijection (d0 d1 d2 : ℕ) :
    (∀ i j k : ℕ, i < d0 → j < d1 → k < d2 →
      let n := sub2ind ((i : ℤ) + 1) ((j : ℤ) + 1) ((k : ℤ) + 1) d0 d1
      1 ≤ n ∧ n ≤ (d0 * d1 * d2 : ℕ) ∧ ind2sub n d0 d1 = ((i : ℤ) + 1, (j : ℤ) + 1, (k : ℤ) + 1)) ∧
    (∀ n : ℕ, 1 ≤ n → n ≤ d0 * d1 * d2 → ∃ i j k : ℕ, i < d0 ∧ j < d1 ∧ k < d2 ∧
      ind2sub n d0 d1 = ((i : ℤ) + 1, (j : ℤ) + 1, (k : ℤ) + 1) ∧
      sub2ind ((i : ℤ) + 1) ((j : ℤ) + 1) ((k : ℤ) + 1) d0 d1 = n) := by
  constructor
  · intro i j k hi hj hk
    simp only [sub2ind_eq]
    refine ⟨by omega, ?_, ind2sub_eq hi hj⟩
    have := lin_lt hi hj hk
    exact_mod_cast this
  · intro n h1 h2
    obtain ⟨i, j, k, hi, hj, hk, h⟩ := exists_lin (d0 := d0) (d1 := d1) (d2 := d2) (n := n - 1) (by omega)
    refine ⟨i, j, k, hi, hj, hk, ?_, ?_⟩
    · have := ind2sub_eq (k := k) hi hj
      rw [← h] at this
      have e : ((n - 1 : ℕ) : ℤ) + 1 = n := by omega
      rwa [e] at this
    · rw [sub2ind_eq, ← h]; omega

/-- The node number (0-based) that holds array position `p`. -/
def numberOf (d0 d1 : ℕ) (p : Node) : ℕ := p.1 + d0 * (p.2.1 + d1 * p.2.2)

/-- On the border of the grid in some axis direction. -/
def OnBorder (d0 d1 d2 : ℕ) (p : Node) : Prop :=
  p.1 = 0 ∨ p.1 + 1 = d0 ∨ p.2.1 = 0 ∨ p.2.1 + 1 = d1 ∨ p.2.2 = 0 ∨ p.2.2 + 1 = d2

/-- **C06 (b).** The stencil of a node consists exactly of its in-grid axis neighbours, and
the node itself when it lies on the border. -/
theorem C06_stencil {d0 d1 d2 : ℕ} {p : Node} (hp : InGrid d0 d1 d2 p) (b : ℕ) :
    b ∈ nbrs d0 d1 d2 (numberOf d0 d1 p) ↔
      (∃ q, InGrid d0 d1 d2 q ∧ Adjacent p q ∧ b = numberOf d0 d1 q) ∨
      (OnBorder d0 d1 d2 p ∧ b = numberOf d0 d1 p) := by
  constructor
  · intro hb
    by_cases hbd : OnBorder d0 d1 d2 p
    · obtain ⟨q, hq, rfl, rfl | hpq⟩ := nbrs_adjacent hp hb
      · exact Or.inr ⟨hbd, rfl⟩
      · exact Or.inl ⟨q, hq, hpq, rfl⟩
    · obtain ⟨i, j, k⟩ := p
      obtain ⟨hi, hj, hk⟩ := hp
      simp only [OnBorder, not_or] at hbd hi hj hk
      change b ∈ nbrs d0 d1 d2 (lin d0 d1 i j k) at hb
      rw [nbrs_eq hi hj hk] at hb
      simp only [List.mem_cons, List.not_mem_nil, or_false] at hb
      left
      rcases hb with h | h | h | h | h | h
      · refine ⟨(i, j + 1, k), ⟨hi, by simp only []; omega, hk⟩, Or.inl (by simp [Succ]), ?_⟩
        rw [h, show min (j + 1) (d1 - 1) = j + 1 by omega]; rfl
      · refine ⟨(i, j - 1, k), ⟨hi, by simp only []; omega, hk⟩, Or.inr (Or.inr (Or.inl ?_)), h⟩
        ext <;> simp; omega
      · refine ⟨(i + 1, j, k), ⟨by simp only []; omega, hj, hk⟩, Or.inl (by simp [Succ]), ?_⟩
        rw [h, show min (i + 1) (d0 - 1) = i + 1 by omega]; rfl
      · refine ⟨(i - 1, j, k), ⟨by simp only []; omega, hj, hk⟩, Or.inr (Or.inl ?_), h⟩
        ext <;> simp; omega
      · refine ⟨(i, j, k + 1), ⟨hi, hj, by simp only []; omega⟩, Or.inl (by simp [Succ]), ?_⟩
        rw [h, show min (k + 1) (d2 - 1) = k + 1 by omega]; rfl
      · refine ⟨(i, j, k - 1), ⟨hi, hj, by simp only []; omega⟩, Or.inr (Or.inr (Or.inr ?_)), h⟩
        ext <;> simp; omega
  · rintro (⟨q, hq, hpq, rfl⟩ | ⟨hbd, rfl⟩)
    · exact adjacent_nbrs hp hq hpq
    · obtain ⟨i, j, k⟩ := p
      obtain ⟨hi, hj, hk⟩ := hp
      simp only [OnBorder] at hbd hi hj hk
      change lin d0 d1 i j k ∈ nbrs d0 d1 d2 (lin d0 d1 i j k)
      rw [nbrs_eq hi hj hk]
      rcases hbd with h | h | h | h | h | h
      · subst h; simp
      · rw [show min (i + 1) (d0 - 1) = i by omega]; simp
      · subst h; simp
      · rw [show min (j + 1) (d1 - 1) = j by omega]; simp
      · subst h; simp
      · rw [show min (k + 1) (d2 - 1) = k by omega]; simp

/-- **C06 (c).** The Python `flatten("F")` puts array position `p` at node number
`numberOf p`, and `reshape(..., "F")` reads it back from there; distinct positions have
distinct numbers. -/
theorem C06_python_order {d0 d1 d2 : ℕ} (A : ℕ → ℕ → ℕ → K) (v : ℕ → K) :
    (∀ p, InGrid d0 d1 d2 p → flattenF d0 d1 A (numberOf d0 d1 p) = at3 A p ∧
      at3 (reshapeF d0 d1 v) p = v (numberOf d0 d1 p)) ∧
    (∀ p q, InGrid d0 d1 d2 p → InGrid d0 d1 d2 q → numberOf d0 d1 p = numberOf d0 d1 q → p = q) ∧
    (∀ n < d0 * d1 * d2, ∃ p, InGrid d0 d1 d2 p ∧ numberOf d0 d1 p = n) := by
  refine ⟨?_, ?_, ?_⟩
  · rintro ⟨i, j, k⟩ ⟨hi, hj, hk⟩
    exact ⟨flatten_lin hi hj A, rfl⟩
  · rintro ⟨i, j, k⟩ ⟨i', j', k'⟩ ⟨hi, hj, hk⟩ ⟨hi', hj', hk'⟩ h
    obtain ⟨h1, h2, h3⟩ := lin_inj hi hj hi' hj' h
    simp only at h1 h2 h3
    rw [h1, h2, h3]
  · intro n hn
    obtain ⟨i, j, k, hi, hj, hk, h⟩ := exists_lin hn
    exact ⟨(i, j, k), ⟨hi, hj, hk⟩, h.symm⟩

/-! ### Non-vacuity: concrete cases meeting the hypotheses -/

/-- A 3x1x1 field `10, 10, 1`. -/
def demo : ℕ → ℕ → ℕ → ℚ := fun i _ _ => if i = 2 then 1 else 10

theorem demo_isMin : IsMin 3 1 1 demo 1 := by
  constructor
  · rintro ⟨i, j, k⟩ -
    simp only [at3, demo]; split_ifs <;> norm_num
  · exact ⟨(2, 0, 0), ⟨by simp, by simp, by simp⟩, by simp [at3, demo]⟩

/-- The limiter really changes `demo` (to 3, 2, 1) and converges: the hypotheses of C01, C02,
C05b are met by a non-trivial run. -/
def demoRun : Bool :=
  match enforceGradation 10000 3 1 1 (0 : ℚ) demo 1 1 with
  | .ok (R, c) => c && decide (R 0 0 0 = 3) && decide (R 1 0 0 = 2) && decide (R 2 0 0 = 1)
  | .error _ => false

example : demoRun = true := by decide +kernel

example : excess 3 1 1 (1 : ℚ) demo / (1 * (1 / 2)) + 1 < (10000 : ℕ) := by
  norm_num [excess, demo, Finset.sum_range_succ]

/-- C03 (c): `demo` spans 9 steps. -/
example : ∃ R, enforceGradation shippedCap 3 1 1 (0 : ℚ) demo 1 1 = .ok (R, true) ∧ GradedBy 3 1 1 (1 * 1 + 1 * 0) R :=
  C03_shipped (M := 10) le_rfl (by norm_num) demo_isMin (by norm_num) (by norm_num)
    (by intro p _; simp only [at3, demo]; split_ifs <;> norm_num) (by norm_num)

/-- C04/C05: the constant field 1 is below `demo` and graded. -/
example : GradedBy 3 1 1 (1 * 1 : ℚ) (fun _ _ _ => 1) ∧
    (∀ p, InGrid 3 1 1 p → at3 (fun _ _ _ => (1 : ℚ)) p ≤ at3 demo p) := by
  constructor
  · intro p q _ _ _; simp [at3]
  · intro p hp; exact demo_isMin.1 p hp

end SM.Limgrad
