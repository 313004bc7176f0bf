import Verif.Model.InterpFl
import Verif.Props.Interp
import Verif.Props.SdfFl
import Verif.Props.FixedFl
import Verif.Lemmas.Binary64
import Mathlib.Tactic.Linarith
import Mathlib.Tactic.Positivity
import Mathlib.Tactic.Ring
import Mathlib.Tactic.NormNum

/-!
# C141: the sizing function evaluated in floating-point arithmetic
-/

namespace SM.InterpFl

open Interp SdfFl

variable {K : Type} [Field K] [LinearOrder K] [IsStrictOrderedRing K] {rnd : K → K} {u : K}

/-! ### Specification -/

/-- The point lies in the box spanned by the grid. -/
def InGrid : List (Axis K) → List K → Prop
  | [], [] => True
  | a :: as, x :: xs => a.node 0 ≤ x ∧ x ≤ a.node (a.n - 1) ∧ InGrid as xs
  | _, _ => False

/-! ### One axis -/

theorem cell_spec {a : Axis K} (ha : a.Good) {x : K} (h0 : a.node 0 ≤ x) (h1 : x ≤ a.node (a.n - 1)) :
    cellIdx a x + 1 < a.n ∧ a.node (cellIdx a x) ≤ x ∧ x ≤ a.node (cellIdx a x + 1) := by
  obtain ⟨s1, s2, s3⟩ := search_spec (node := a.node) (x := x) (a.n - 2) ⟨0, by omega, h0⟩ ha.2
  have h2 := ha.1
  refine ⟨by unfold cellIdx; omega, s2, ?_⟩
  rcases Nat.lt_or_ge (cellIdx a x) (a.n - 2) with h | h
  · exact (s3 h).le
  · have : cellIdx a x + 1 = a.n - 1 := by
      unfold cellIdx at h ⊢
      omega
    rw [this]
    exact h1

theorem t_range (hm : Monotone rnd) (h1 : rnd 1 = 1) (ha : Accurate rnd u) (hu : u < 1) {a : Axis K} (hg : a.Good) {x : K} (hx0 : a.node 0 ≤ x) (hx1 : x ≤ a.node (a.n - 1)) :
    0 ≤ tOf rnd a x ∧ tOf rnd a x ≤ 1 := by
  obtain ⟨-, h2, h3⟩ := cell_spec hg hx0 hx1
  have hd : 0 < a.node (cellIdx a x + 1) - a.node (cellIdx a x) := sub_pos.2 (hg.2 _ _ (by omega))
  have hr := FixedFl.rnd_pos ha hu hd
  have hn := FixedFl.rnd_nonneg ha hu (sub_nonneg.2 h2)
  unfold tOf
  refine ⟨FixedFl.rnd_nonneg ha hu (div_nonneg hn hr.le), ?_⟩
  rw [← h1]
  refine hm ?_
  rw [div_le_one hr]
  exact hm (by linarith)

/-! ### Relative error -/

/-- `x` lies between `lo` and `hi` up to `c` roundings. -/
def Btw (u : K) (c : ℕ) (lo x hi : K) : Prop := (1 - u) ^ c * lo ≤ x ∧ x ≤ (1 + u) ^ c * hi

theorem rnd_le (ha : Accurate rnd u) {x : K} (hx : 0 ≤ x) : rnd x ≤ (1 + u) * x := by
  have := abs_le.1 (ha x)
  rw [abs_of_nonneg hx] at this
  linarith [this.2]

theorem le_rnd (ha : Accurate rnd u) {x : K} (hx : 0 ≤ x) : (1 - u) * x ≤ rnd x := by
  have := abs_le.1 (ha x)
  rw [abs_of_nonneg hx] at this
  linarith [this.1]

theorem Btw.mono (hu0 : 0 ≤ u) (hu : u < 1) {c c' : ℕ} (hc : c ≤ c') {lo x hi : K} (hlo : 0 ≤ lo) (hhi : 0 ≤ hi) (h : Btw u c lo x hi) : Btw u c' lo x hi :=
  ⟨(mul_le_mul_of_nonneg_right (pow_le_pow_of_le_one (by linarith) (by linarith) hc) hlo).trans h.1,
    h.2.trans (mul_le_mul_of_nonneg_right (pow_le_pow_right₀ (by linarith) hc) hhi)⟩

theorem Btw.nonneg (hu : u < 1) {c : ℕ} {lo x hi : K} (hlo : 0 ≤ lo) (h : Btw u c lo x hi) : 0 ≤ x :=
  (mul_nonneg (pow_nonneg (by linarith) _) hlo).trans h.1

theorem Btw.round (hu0 : 0 ≤ u) (hu : u < 1) (ha : Accurate rnd u) {c : ℕ} {lo x hi : K} (hlo : 0 ≤ lo) (h : Btw u c lo x hi) : Btw u (c + 1) lo (rnd x) hi := by
  have hx := h.nonneg hu hlo
  constructor
  · rw [pow_succ', mul_assoc]
    exact (mul_le_mul_of_nonneg_left h.1 (by linarith)).trans (le_rnd ha hx)
  · rw [pow_succ', mul_assoc]
    exact (rnd_le ha hx).trans (mul_le_mul_of_nonneg_left h.2 (by linarith))

theorem Btw.add {c : ℕ} {lo x hi lo' x' hi' : K} (h : Btw u c lo x hi) (h' : Btw u c lo' x' hi') : Btw u c (lo + lo') (x + x') (hi + hi') := by
  unfold Btw at *
  rw [mul_add, mul_add]
  exact ⟨add_le_add h.1 h'.1, add_le_add h.2 h'.2⟩

/-- Adding up a list. -/
theorem fold_btw (hu0 : 0 ≤ u) (hu : u < 1) (ha : Accurate rnd u) : ∀ (l : List K) {c : ℕ} {lo s hi : K}, (∀ y ∈ l, 0 ≤ y) → 0 ≤ lo → 0 ≤ hi → Btw u c lo s hi →
    Btw u (c + l.length) (lo + l.sum) (l.foldl (fun s y => rnd (s + y)) s) (hi + l.sum)
  | [], c, lo, s, hi, _, _, _, h => by simpa using h
  | y :: l, c, lo, s, hi, hl, hlo, hhi, h => by
    have hy := hl y (by simp)
    have h1 : Btw u c (lo + y) (s + y) (hi + y) := by
      refine h.add ⟨?_, ?_⟩
      · have : (1 - u) ^ c ≤ 1 := pow_le_one₀ (by linarith) (by linarith)
        nlinarith
      · have : 1 ≤ (1 + u) ^ c := one_le_pow₀ (by linarith)
        nlinarith
    have h2 := fold_btw hu0 hu ha l (fun z hz => hl z (by simp [hz])) (by linarith) (by linarith) (h1.round hu0 hu ha (by linarith))
    simp only [List.foldl_cons, List.sum_cons, List.length_cons] at h2 ⊢
    rw [← add_assoc, ← add_assoc, ← add_assoc, show c + l.length + 1 = c + 1 + l.length by omega]
    exact h2

/-! ### The terms -/

theorem terms_length : ∀ (as : List (Axis K)) (w : K) (A : List ℕ → K) (xs : List K), as.length = xs.length → (terms rnd as w A xs).length = 2 ^ as.length
  | [], _, _, [], _ => by simp [terms]
  | a :: as, w, A, x :: xs, h => by
    have h' : as.length = xs.length := by simpa using h
    simp only [terms, List.length_append, terms_length as _ _ xs h', List.length_cons]
    ring
  | [], _, _, _ :: _, h => by simp at h
  | _ :: _, _, _, [], h => by simp at h

theorem inGrid_length : ∀ {as : List (Axis K)} {xs : List K}, InGrid as xs → as.length = xs.length
  | [], [], _ => rfl
  | a :: as, x :: xs, h => by
    rw [List.length_cons, List.length_cons, inGrid_length h.2.2]

/-- The terms are not negative and add up to a value between the weight times the bounds. -/
theorem terms_btw (hu0 : 0 ≤ u) (hu : u < 1) (ha : Accurate rnd u) (hm : Monotone rnd) (h1 : rnd 1 = 1) {lo hi : K} (hlo : 0 ≤ lo) (hhi : 0 ≤ hi) :
    ∀ (as : List (Axis K)), (∀ a ∈ as, a.Good) → ∀ (xs : List K), InGrid as xs → ∀ (w : K), 0 ≤ w → ∀ A : List ℕ → K, (∀ js, IsNode as js → lo ≤ A js ∧ A js ≤ hi) →
      (∀ y ∈ terms rnd as w A xs, 0 ≤ y) ∧ Btw u (2 * as.length + 1) (w * lo) (terms rnd as w A xs).sum (w * hi)
  | [], _, [], _, w, hw, A, hA => by
    obtain ⟨hA1, hA2⟩ := hA [] trivial
    have h0 : 0 ≤ A [] * w := mul_nonneg (hlo.trans hA1) hw
    refine ⟨by simp only [terms, List.mem_singleton, forall_eq]; exact FixedFl.rnd_nonneg ha hu h0, ?_⟩
    have hb : Btw u 0 (w * lo) (A [] * w) (w * hi) := by
      constructor
      · rw [pow_zero, one_mul, mul_comm (A [])]
        exact mul_le_mul_of_nonneg_left hA1 hw
      · rw [pow_zero, one_mul, mul_comm (A [])]
        exact mul_le_mul_of_nonneg_left hA2 hw
    simpa [terms] using hb.round hu0 hu ha (mul_nonneg hw hlo)
  | a :: as, hg, x :: xs, hx, w, hw, A, hA => by
    obtain ⟨hx0, hx1, hxs⟩ := hx
    obtain ⟨hc, -, -⟩ := cell_spec (hg a (by simp)) hx0 hx1
    obtain ⟨ht0, ht1⟩ := t_range hm h1 ha hu (hg a (by simp)) hx0 hx1
    have hs0 : 0 ≤ rnd (1 - tOf rnd a x) := FixedFl.rnd_nonneg ha hu (by linarith)
    have hw1 : 0 ≤ rnd (w * rnd (1 - tOf rnd a x)) := FixedFl.rnd_nonneg ha hu (mul_nonneg hw hs0)
    have hw2 : 0 ≤ rnd (w * tOf rnd a x) := FixedFl.rnd_nonneg ha hu (mul_nonneg hw ht0)
    obtain ⟨p1, q1⟩ := terms_btw hu0 hu ha hm h1 hlo hhi as (fun b hb => hg b (by simp [hb])) xs hxs _ hw1 (fun js => A (cellIdx a x :: js))
      fun js hjs => hA _ ⟨by omega, hjs⟩
    obtain ⟨p2, q2⟩ := terms_btw hu0 hu ha hm h1 hlo hhi as (fun b hb => hg b (by simp [hb])) xs hxs _ hw2 (fun js => A ((cellIdx a x + 1) :: js))
      fun js hjs => hA _ ⟨hc, hjs⟩
    refine ⟨fun y hy => ?_, ?_⟩
    · rw [terms, List.mem_append] at hy
      exact hy.elim (p1 y) (p2 y)
    · have hq := q1.add q2
      rw [terms, List.sum_append]
      -- the sum of the two weights
      have e1 := rnd_le ha (mul_nonneg hw hs0)
      have e2 := le_rnd ha (mul_nonneg hw hs0)
      have e3 := rnd_le ha (mul_nonneg hw ht0)
      have e4 := le_rnd ha (mul_nonneg hw ht0)
      have e5 := rnd_le (x := 1 - tOf rnd a x) ha (by linarith)
      have e6 := le_rnd (x := 1 - tOf rnd a x) ha (by linarith)
      set s := rnd (1 - tOf rnd a x) with hs
      set t := tOf rnd a x with ht
      set w1 := rnd (w * s) with hw1'
      set w2 := rnd (w * t) with hw2'
      have u1 : w1 + w2 ≤ (1 + u) ^ 2 * w := by
        have : s + t ≤ 1 + u := by nlinarith [mul_nonneg hu0 ht0]
        have h2 : w * (s + t) ≤ w * (1 + u) := mul_le_mul_of_nonneg_left this hw
        have h3 : (1 + u) * (w * (s + t)) ≤ (1 + u) * (w * (1 + u)) := mul_le_mul_of_nonneg_left h2 (by linarith)
        have h4 : (1 + u) * (w * (s + t)) = (1 + u) * (w * s) + (1 + u) * (w * t) := by ring
        have h5 : (1 + u) * (w * (1 + u)) = (1 + u) ^ 2 * w := by ring
        linarith
      have u2 : (1 - u) ^ 2 * w ≤ w1 + w2 := by
        have : 1 - u ≤ s + t := by nlinarith [mul_nonneg hu0 ht0]
        have h2 : w * (1 - u) ≤ w * (s + t) := mul_le_mul_of_nonneg_left this hw
        have h3 : (1 - u) * (w * (1 - u)) ≤ (1 - u) * (w * (s + t)) := mul_le_mul_of_nonneg_left h2 (sub_nonneg.2 hu.le)
        have h4 : (1 - u) * (w * (s + t)) = (1 - u) * (w * s) + (1 - u) * (w * t) := by ring
        have h5 : (1 - u) * (w * (1 - u)) = (1 - u) ^ 2 * w := by ring
        linarith
      constructor
      · refine le_trans ?_ hq.1
        rw [← add_mul, List.length_cons, show 2 * (as.length + 1) + 1 = (2 * as.length + 1) + 2 by ring, pow_add, mul_assoc]
        have hp : 0 ≤ (1 - u) ^ (2 * as.length + 1) := pow_nonneg (sub_nonneg.2 hu.le) _
        refine mul_le_mul_of_nonneg_left ?_ hp
        rw [← mul_assoc]
        exact mul_le_mul_of_nonneg_right u2 hlo
      · refine hq.2.trans ?_
        have e : (1 + u) ^ (2 * (as.length + 1) + 1) = (1 + u) ^ (2 * as.length + 1) * (1 + u) ^ 2 := by ring
        have hp : 0 ≤ (1 + u) ^ (2 * as.length + 1) := pow_nonneg (add_nonneg zero_le_one hu0) _
        rw [← add_mul, List.length_cons, e, mul_assoc ((1 + u) ^ (2 * as.length + 1)) ((1 + u) ^ 2)]
        refine mul_le_mul_of_nonneg_left ?_ hp
        rw [← mul_assoc]
        exact mul_le_mul_of_nonneg_right u1 hhi

/-! ### C141 -/

/-- **C141 (range).** With any rounding that keeps the order and 1 and has relative error at most `u < 1`: if all values on a grid of dimension `d` lie between `lo ≥ 0` and `hi`, the interpolated
value at every point of the grid's box lies between `(1 - u)^(2d + 1 + 2^d) lo` and `(1 + u)^(2d + 1 + 2^d) hi`. -/
theorem C141_range (hu0 : 0 ≤ u) (hu : u < 1) (ha : Accurate rnd u) (hm : Monotone rnd) (h1 : rnd 1 = 1) {as : List (Axis K)} (hg : ∀ a ∈ as, a.Good) {xs : List K} (hx : InGrid as xs)
    {A : List ℕ → K} {lo hi : K} (hlo : 0 ≤ lo) (hhi : 0 ≤ hi) (hA : ∀ js, IsNode as js → lo ≤ A js ∧ A js ≤ hi) :
    (1 - u) ^ (2 * as.length + 1 + 2 ^ as.length) * lo ≤ interp rnd as A xs ∧ interp rnd as A xs ≤ (1 + u) ^ (2 * as.length + 1 + 2 ^ as.length) * hi := by
  obtain ⟨h2, h3⟩ := terms_btw hu0 hu ha hm h1 hlo hhi as hg xs hx 1 zero_le_one A hA
  rw [one_mul, one_mul] at h3
  have h4 := fold_btw hu0 hu ha (terms rnd as 1 A xs) (c := 0) (lo := 0) (s := 0) (hi := 0) h2 le_rfl le_rfl ⟨by simp, by simp⟩
  rw [terms_length as 1 A xs (inGrid_length hx)] at h4
  simp only [pow_zero, one_mul, zero_add] at h4
  have hp : 0 ≤ (1 - u) ^ 2 ^ as.length := pow_nonneg (by linarith) _
  have hp' : 0 ≤ (1 + u) ^ 2 ^ as.length := pow_nonneg (by linarith) _
  constructor
  · refine le_trans ?_ h4.1
    rw [pow_add, mul_comm (_ ^ _) (_ ^ _), mul_assoc]
    exact mul_le_mul_of_nonneg_left h3.1 hp
  · refine h4.2.trans ?_
    rw [pow_add, mul_comm ((1 + u) ^ (2 * as.length + 1)) (_ ^ _), mul_assoc]
    exact mul_le_mul_of_nonneg_left h3.2 hp'

/-- **C141 (positive sizes).** Positive sizes on the grid give positive sizes everywhere in the box. -/
theorem C141_positive (hu0 : 0 ≤ u) (hu : u < 1) (ha : Accurate rnd u) (hm : Monotone rnd) (h1 : rnd 1 = 1) {as : List (Axis K)} (hg : ∀ a ∈ as, a.Good) {xs : List K} (hx : InGrid as xs)
    {A : List ℕ → K} {lo hi : K} (hlo : 0 < lo) (hA : ∀ js, IsNode as js → lo ≤ A js ∧ A js ≤ hi) : 0 < interp rnd as A xs := by
  obtain ⟨js, hjs⟩ : ∃ js, IsNode as js := by
    clear hA hx
    induction as with
    | nil => exact ⟨[], trivial⟩
    | cons a as ih =>
      obtain ⟨js, hjs⟩ := ih fun b hb => hg b (by simp [hb])
      exact ⟨0 :: js, by have := (hg a (by simp)).1; omega, hjs⟩
  have hhi : 0 ≤ hi := hlo.le.trans ((hA js hjs).1.trans (hA js hjs).2)
  exact lt_of_lt_of_le (mul_pos (pow_pos (by linarith) _) hlo) (C141_range hu0 hu ha hm h1 hg hx hlo.le hhi hA).1

/-! ### Nodes -/

theorem terms_zero (ha : Accurate rnd u) : ∀ (as : List (Axis K)) (A : List ℕ → K) (xs : List K), ∀ y ∈ terms rnd as 0 A xs, y = 0
  | [], A, xs => by simp [terms, FixedFl.rnd_zero ha]
  | a :: as, A, [] => by simp [terms, FixedFl.rnd_zero ha]
  | a :: as, A, x :: xs => by
    intro y hy
    simp only [terms, zero_mul, FixedFl.rnd_zero ha, List.mem_append] at hy
    exact hy.elim (terms_zero ha as _ xs y) (terms_zero ha as _ xs y)

theorem fold_zero {l : List K} (hl : ∀ y ∈ l, y = 0) {s : K} (hs : rnd s = s) : l.foldl (fun s y => rnd (s + y)) s = s := by
  induction l with
  | nil => rfl
  | cons y l ih =>
    rw [List.foldl_cons, hl y (by simp), add_zero, hs]
    exact ih fun z hz => hl z (by simp [hz])

theorem t_node (ha : Accurate rnd u) (hu : u < 1) (h1 : rnd 1 = 1) {a : Axis K} (hg : a.Good) {j : ℕ} (hj : j < a.n) :
    (cellIdx a (a.node j) = j ∧ tOf rnd a (a.node j) = 0) ∨ (cellIdx a (a.node j) + 1 = j ∧ tOf rnd a (a.node j) = 1) := by
  have hinj : ∀ i k, a.node i ≤ a.node k → i ≤ k := by
    intro i k h
    by_contra hc
    exact absurd (hg.2 k i (not_le.1 hc)) (not_lt.2 h)
  have hmono : ∀ i k, i ≤ k → a.node i ≤ a.node k := by
    intro i k h
    rcases Nat.lt_or_eq_of_le h with h | rfl
    · exact (hg.2 _ _ h).le
    · exact le_rfl
  obtain ⟨s1, s2, s3⟩ := cell_spec hg (x := a.node j) (hmono _ _ (by omega)) (hmono _ _ (by omega))
  have e1 := hinj _ _ s2
  have e2 := hinj _ _ s3
  rcases Nat.lt_or_eq_of_le e1 with h | h
  · right
    have : cellIdx a (a.node j) + 1 = j := by omega
    refine ⟨this, ?_⟩
    unfold tOf
    simp only []
    rw [this, div_self, h1]
    exact FixedFl.rnd_ne ha hu (sub_pos.2 (hg.2 _ _ h)).ne'
  · left
    refine ⟨h, ?_⟩
    unfold tOf
    simp only []
    rw [h, sub_self, FixedFl.rnd_zero ha, zero_div, FixedFl.rnd_zero ha]

theorem interp_node (ha : Accurate rnd u) (hu : u < 1) (h1 : rnd 1 = 1) : ∀ (as : List (Axis K)), (∀ a ∈ as, a.Good) → ∀ js, IsNode as js → ∀ A : List ℕ → K, rnd (A js) = A js →
    (terms rnd as 1 A (nodeOf as js)).foldl (fun s y => rnd (s + y)) 0 = A js
  | [], _, [], _, A, hA => by simp [terms, hA]
  | a :: as, hg, j :: js, ⟨hj, hjs⟩, A, hA => by
    have e : nodeOf (a :: as) (j :: js) = a.node j :: nodeOf as js := rfl
    rw [e, terms, List.foldl_append]
    rcases t_node ha hu h1 (hg a (by simp)) hj with ⟨h2, h3⟩ | ⟨h2, h3⟩
    · simp only [h2, h3, sub_zero, h1, mul_one, mul_zero, FixedFl.rnd_zero ha]
      rw [interp_node ha hu h1 as (fun b hb => hg b (by simp [hb])) js hjs (fun js => A (j :: js)) hA]
      exact fold_zero (terms_zero ha as _ _) hA
    · simp only [h2, h3, sub_self, FixedFl.rnd_zero ha, mul_zero, mul_one, h1]
      rw [fold_zero (terms_zero ha as _ _) (FixedFl.rnd_zero ha)]
      exact interp_node ha hu h1 as (fun b hb => hg b (by simp [hb])) js hjs (fun js => A (j :: js)) hA

/-- **C141 (nodes).** At the nodes of the grid, the last ones included, the interpolated value is exactly the value of the array. -/
theorem C141_nodes (ha : Accurate rnd u) (hu : u < 1) (h1 : rnd 1 = 1) {as : List (Axis K)} (hg : ∀ a ∈ as, a.Good) {js : List ℕ} (hj : IsNode as js) {A : List ℕ → K} (hA : rnd (A js) = A js) :
    interp rnd as A (nodeOf as js) = A js := interp_node ha hu h1 as hg js hj A hA

/-- **C141 (parallel).** The sizing function that a rank works with agrees exactly with the global one at the nodes of its local grid. -/
theorem C141_local_nodes (ha : Accurate rnd u) (hu : u < 1) (h1 : rnd 1 = 1) {as : List (Axis K)} (hg : ∀ a ∈ as, a.Good) {js : List ℕ} (hj : IsNode as js) {fh : List K → K}
    (hA : rnd (fh (nodeOf as js)) = fh (nodeOf as js)) : localize rnd as fh (nodeOf as js) = fh (nodeOf as js) :=
  C141_nodes ha hu h1 hg hj (A := fun js => fh (nodeOf as js)) hA

/-! ### Below the smallest size -/

/-- The grid vector 0, 1, 2, ..., with two nodes. -/
def unit2 : Axis ℚ := ⟨2, fun i => i⟩

theorem unit2_good : unit2.Good := ⟨le_rfl, fun i j h => by
  show (i : ℚ) < (j : ℚ)
  exact_mod_cast h⟩

/-- `1 / 17` in double precision. -/
def x17 : ℚ := Fl.binary64 (1 / 17)

/-- **C141 (the rounding error cannot be left out).** In double precision a sizing function that is 50 at every node of its grid is smaller than 50 at some point in between. -/
theorem C141_below : ∃ xs, InGrid [unit2, unit2] xs ∧ (∀ x ∈ xs, Fl.binary64 x = x) ∧ interp Fl.binary64 [unit2, unit2] (fun _ => 50) xs < 50 :=
  ⟨[1 / 2, x17], by refine ⟨?_, ?_, ?_, ?_, trivial⟩ <;> decide +kernel, by
    simp only [List.mem_cons, List.not_mem_nil, or_false, forall_eq_or_imp, forall_eq]
    decide +kernel, by decide +kernel⟩

/-- The hypotheses of `C141_range` and `C141_nodes` are met in double precision by that grid. -/
example : ∃ (as : List (Axis ℚ)) (xs : List ℚ) (js : List ℕ), Monotone Fl.binary64 ∧ Fl.binary64 1 = 1 ∧ Accurate Fl.binary64 (1 / 9007199254740992) ∧ (∀ a ∈ as, a.Good) ∧ InGrid as xs ∧
    IsNode as js ∧ as.length = 2 ∧ Fl.binary64 50 = 50 :=
  ⟨[unit2, unit2], [1 / 2, 1 / 4], [1, 0], Fl.binary64_mono, by decide +kernel, fun q => Fl.binary64_error q, by simp [unit2_good], by refine ⟨?_, ?_, ?_, ?_, trivial⟩ <;> decide +kernel,
    ⟨by decide, by decide, trivial⟩, rfl, by decide +kernel⟩

end SM.InterpFl
