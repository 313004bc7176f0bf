import Verif.Props.Limgrad
import Mathlib.Data.Finset.Max
import Mathlib.Data.Finset.Prod
import Mathlib.Tactic.Linarith
import Mathlib.Tactic.Ring
import Mathlib.Tactic.Positivity

/-!
# C92: what the gradient limiter computes

The field the limiter returns on convergence is, up to its tolerance, the field
`p ↦ min over all nodes q of (A q + step * distance(p, q))`, the distance being the number of grid
steps between the nodes. Hence it does not depend on the order in which the nodes are swept or numbered, and
it is monotone in the requested sizes (both up to the tolerance).
-/

namespace SM.Limgrad

/-- Number of grid steps between two nodes. -/
def gdist (p q : Node) : ℕ :=
  ((p.1 : ℤ) - q.1).natAbs + ((p.2.1 : ℤ) - q.2.1).natAbs + ((p.2.2 : ℤ) - q.2.2).natAbs

variable {K : Type*} [Field K] [LinearOrder K] [IsStrictOrderedRing K]

theorem axis_walk {f : ℕ → K} {n : ℕ} {b : K} (h : ∀ i, i + 1 < n → |f i - f (i + 1)| ≤ b) {i j : ℕ}
    (hi : i < n) (hj : j < n) : |f i - f j| ≤ (((i : ℤ) - j).natAbs : ℕ) * b := by
  have key : ∀ (k i : ℕ), i + k < n → |f i - f (i + k)| ≤ (k : ℕ) * b := by
    intro k
    induction k with
    | zero => intro i _; simp
    | succ k ih =>
      intro i hik
      have h1 := ih i (by omega)
      have h2 := h (i + k) (by omega)
      have h3 := abs_sub_le (f i) (f (i + k)) (f (i + k + 1))
      rw [show i + (k + 1) = i + k + 1 by omega]
      push_cast
      linarith
  rcases Nat.le_total i j with hij | hij
  · obtain ⟨k, rfl⟩ := Nat.exists_eq_add_of_le hij
    have : ((i : ℤ) - ((i + k : ℕ) : ℤ)).natAbs = k := by omega
    rw [this]; exact key k i hj
  · obtain ⟨k, rfl⟩ := Nat.exists_eq_add_of_le hij
    have : (((j + k : ℕ) : ℤ) - (j : ℤ)).natAbs = k := by omega
    rw [this, abs_sub_comm]; exact key k j hi

/-- Gradation over any distance. -/
theorem graded_dist {d0 d1 d2 : ℕ} {b : K} {A : ℕ → ℕ → ℕ → K} (hA : GradedBy d0 d1 d2 b A) {p q : Node}
    (hp : InGrid d0 d1 d2 p) (hq : InGrid d0 d1 d2 q) : |at3 A p - at3 A q| ≤ gdist p q * b := by
  obtain ⟨i, j, k⟩ := p
  obtain ⟨i', j', k'⟩ := q
  obtain ⟨hi, hj, hk⟩ := hp
  obtain ⟨hi', hj', hk'⟩ := hq
  simp only at hi hj hk hi' hj' hk'
  have a1 := axis_walk (f := fun i => A i j k) (n := d0) (b := b) (fun i hi => hA (i, j, k) (i + 1, j, k)
    ⟨Nat.lt_of_succ_lt hi, hj, hk⟩ ⟨hi, hj, hk⟩ (.inl (.inl rfl))) hi hi'
  have a2 := axis_walk (f := fun j => A i' j k) (n := d1) (b := b) (fun j hj => hA (i', j, k) (i', j + 1, k)
    ⟨hi', Nat.lt_of_succ_lt hj, hk⟩ ⟨hi', hj, hk⟩ (.inl (.inr (.inl rfl)))) hj hj'
  have a3 := axis_walk (f := fun k => A i' j' k) (n := d2) (b := b) (fun k hk => hA (i', j', k) (i', j', k + 1)
    ⟨hi', hj', Nat.lt_of_succ_lt hk⟩ ⟨hi', hj', hk⟩ (.inl (.inr (.inr rfl)))) hk hk'
  have t1 := abs_sub_le (A i j k) (A i' j k) (A i' j' k')
  have t2 := abs_sub_le (A i' j k) (A i' j' k) (A i' j' k')
  simp only [at3, gdist]
  push_cast at a1 a2 a3 ⊢
  linarith

theorem gdist_triangle (p q r : Node) : gdist p r ≤ gdist p q + gdist q r := by
  simp only [gdist]; omega

theorem gdist_comm (p q : Node) : gdist p q = gdist q p := by
  simp only [gdist]; omega

theorem gdist_succ {p q : Node} (h : Adjacent p q) : gdist p q = 1 := by
  obtain ⟨i, j, k⟩ := p
  obtain ⟨i', j', k'⟩ := q
  rcases h with (h | h | h) | (h | h | h) <;> cases h <;> simp only [gdist] <;> omega

/-- A cone `c - step * distance` is graded. -/
theorem cone_graded {d0 d1 d2 : ℕ} (p : Node) {c s : K} (hs : 0 ≤ s) :
    GradedBy d0 d1 d2 s (fun i j k => c - gdist p (i, j, k) * s) := by
  rintro ⟨i, j, k⟩ ⟨i', j', k'⟩ _ _ h
  have h1 := gdist_succ h
  have h2 := gdist_triangle p (i, j, k) (i', j', k')
  have h3 := gdist_triangle p (i', j', k') (i, j, k)
  rw [gdist_comm (i', j', k') (i, j, k)] at h3
  rw [h1] at h2 h3
  have h2' : (gdist p (i', j', k') : K) ≤ gdist p (i, j, k) + 1 := by exact_mod_cast h2
  have h3' : (gdist p (i, j, k) : K) ≤ gdist p (i', j', k') + 1 := by exact_mod_cast h3
  simp only [at3]
  rw [abs_le]
  constructor <;> nlinarith

theorem exists_min_node {d0 d1 d2 : ℕ} (F : Node → K) {p : Node} (hp : InGrid d0 d1 d2 p) :
    ∃ q, InGrid d0 d1 d2 q ∧ ∀ r, InGrid d0 d1 d2 r → F q ≤ F r := by
  have hmem : ∀ r : Node, r ∈ Finset.range d0 ×ˢ Finset.range d1 ×ˢ Finset.range d2 ↔ InGrid d0 d1 d2 r := by
    intro r; simp [InGrid]
  obtain ⟨q, hq, hmin⟩ := Finset.exists_min_image (Finset.range d0 ×ˢ Finset.range d1 ×ˢ Finset.range d2) F
    ⟨p, (hmem p).2 hp⟩
  exact ⟨q, (hmem q).1 hq, fun r hr => hmin r ((hmem r).2 hr)⟩

/-- **C92 (a).** For any number of sweeps, the returned size at `p` is at least
`A q + step * distance(p, q)` for some node `q`: the limiter never refines more than the requests demand. -/
theorem C92_lower {imax d0 d1 d2 : ℕ} {seps grade elen : K} {A R : ℕ → ℕ → ℕ → K} {c : Bool}
    (he : 0 ≤ elen) (h : enforceGradation imax d0 d1 d2 seps A grade elen = .ok (R, c)) {p : Node}
    (hp : InGrid d0 d1 d2 p) :
    ∃ q, InGrid d0 d1 d2 q ∧ (∀ r, InGrid d0 d1 d2 r →
        at3 A q + gdist p q * (elen * grade) ≤ at3 A r + gdist p r * (elen * grade)) ∧
      at3 A q + gdist p q * (elen * grade) ≤ at3 R p := by
  have hg : 0 ≤ grade := by
    rcases enforce_ok h with ⟨h0, -, -⟩ | ⟨hg, -, -⟩
    · exact h0.ge
    · exact hg.le
  obtain ⟨q, hq, hmin⟩ := exists_min_node (fun r => at3 A r + gdist p r * (elen * grade)) hp
  refine ⟨q, hq, hmin, ?_⟩
  have := C04_never_over_refines (G := fun i j k => (at3 A q + gdist p q * (elen * grade)) -
    gdist p (i, j, k) * (elen * grade)) (fun r hr => by
      have := hmin r hr; simp only [at3] at this ⊢; linarith)
    (cone_graded p (mul_nonneg he hg)) he h p hp
  have h0 : gdist p p = 0 := by simp only [gdist]; omega
  simp only [at3] at this ⊢
  rw [show ((p.1, p.2.1, p.2.2) : Node) = p from rfl, h0] at this
  simpa using this

/-- **C92 (b).** On convergence the returned size at `p` is at most
`A q + (step + tolerance) * distance(p, q)` for every node `q`. -/
theorem C92_upper {imax d0 d1 d2 : ℕ} {seps grade elen m : K} {A R : ℕ → ℕ → ℕ → K} (hs : 0 ≤ seps)
    (he : 0 ≤ elen) (hm : IsMin d0 d1 d2 A m) (hm0 : 0 ≤ m) (hg : grade ≠ 0)
    (h : enforceGradation imax d0 d1 d2 seps A grade elen = .ok (R, true)) {p q : Node}
    (hp : InGrid d0 d1 d2 p) (hq : InGrid d0 d1 d2 q) :
    at3 R p ≤ at3 A q + gdist p q * (elen * grade + m * seps) := by
  have h1 := (abs_le.1 (graded_dist (C02_bound_on_convergence hs he hm hm0 hg h) hp hq)).2
  have h2 := (C01_gradation_only_refines hs he hm hm0 h q hq).2
  linarith

/-- Number of steps between the farthest nodes. -/
def diameter (d0 d1 d2 : ℕ) : ℕ := (d0 - 1) + (d1 - 1) + (d2 - 1)

theorem gdist_le {d0 d1 d2 : ℕ} {p q : Node} (hp : InGrid d0 d1 d2 p) (hq : InGrid d0 d1 d2 q) :
    gdist p q ≤ diameter d0 d1 d2 := by
  obtain ⟨a, b, c⟩ := hp
  obtain ⟨a', b', c'⟩ := hq
  simp only [gdist, diameter]; omega

/-- **C92 (c): monotone and stable in the request.** If the requests of one field are at most those of
another plus `δ` everywhere, and both runs converge, the same holds of the results up to the tolerance times
the number of grid steps across the model. -/
theorem C92_monotone {imax imax' d0 d1 d2 : ℕ} {seps grade elen m δ : K} {A A' R R' : ℕ → ℕ → ℕ → K}
    (hs : 0 ≤ seps) (he : 0 ≤ elen) (hm : IsMin d0 d1 d2 A m) (hm0 : 0 ≤ m) (hg : grade ≠ 0)
    (hle : ∀ q, InGrid d0 d1 d2 q → at3 A q ≤ at3 A' q + δ)
    (h : enforceGradation imax d0 d1 d2 seps A grade elen = .ok (R, true)) {c : Bool}
    (h' : enforceGradation imax' d0 d1 d2 seps A' grade elen = .ok (R', c)) {p : Node}
    (hp : InGrid d0 d1 d2 p) : at3 R p ≤ at3 R' p + δ + diameter d0 d1 d2 * (m * seps) := by
  obtain ⟨q, hq, -, hlow⟩ := C92_lower he h' hp
  have h1 := C92_upper hs he hm hm0 hg h hp hq
  have h2 := hle q hq
  have h3 : (gdist p q : K) ≤ diameter d0 d1 d2 := by exact_mod_cast gdist_le hp hq
  have h4 : (gdist p q : K) * (m * seps) ≤ diameter d0 d1 d2 * (m * seps) :=
    mul_le_mul_of_nonneg_right h3 (mul_nonneg hm0 hs)
  linarith

/-- Relabelling of the axes and directions: a distance-preserving bijection of the nodes of two grids. -/
structure Relabel (d0 d1 d2 e0 e1 e2 : ℕ) where
  map : Node → Node
  inv : Node → Node
  map_mem : ∀ p, InGrid d0 d1 d2 p → InGrid e0 e1 e2 (map p)
  inv_mem : ∀ p, InGrid e0 e1 e2 p → InGrid d0 d1 d2 (inv p)
  map_inv : ∀ p, InGrid e0 e1 e2 p → map (inv p) = p
  dist : ∀ p q, InGrid d0 d1 d2 p → InGrid d0 d1 d2 q → gdist (map p) (map q) = gdist p q

/-- **C92 (d): the numbering does not matter.** Transposing or mirroring the array and limiting gives, at
corresponding nodes, the same sizes up to the tolerance. -/
theorem C92_relabel {imax imax' d0 d1 d2 e0 e1 e2 : ℕ} {seps grade elen m : K}
    {A A' R R' : ℕ → ℕ → ℕ → K} (ρ : Relabel d0 d1 d2 e0 e1 e2) (hs : 0 ≤ seps) (he : 0 ≤ elen)
    (hm : IsMin d0 d1 d2 A m) (hm0 : 0 ≤ m) (hg : grade ≠ 0)
    (hA : ∀ p, InGrid d0 d1 d2 p → at3 A' (ρ.map p) = at3 A p)
    (h : enforceGradation imax d0 d1 d2 seps A grade elen = .ok (R, true)) {c : Bool}
    (h' : enforceGradation imax' e0 e1 e2 seps A' grade elen = .ok (R', c)) {p : Node}
    (hp : InGrid d0 d1 d2 p) : at3 R p ≤ at3 R' (ρ.map p) + diameter d0 d1 d2 * (m * seps) := by
  obtain ⟨q, hq, -, hlow⟩ := C92_lower he h' (ρ.map_mem p hp)
  have hq' := ρ.inv_mem q hq
  have e1 : at3 A' q = at3 A (ρ.inv q) := by rw [← hA _ hq', ρ.map_inv q hq]
  have e2 : gdist (ρ.map p) q = gdist p (ρ.inv q) := by rw [← ρ.dist p _ hp hq', ρ.map_inv q hq]
  rw [e1, e2] at hlow
  have h1 := C92_upper hs he hm hm0 hg h hp hq'
  have h3 : (gdist p (ρ.inv q) : K) ≤ diameter d0 d1 d2 := by exact_mod_cast gdist_le hp hq'
  have h4 : (gdist p (ρ.inv q) : K) * (m * seps) ≤ diameter d0 d1 d2 * (m * seps) :=
    mul_le_mul_of_nonneg_right h3 (mul_nonneg hm0 hs)
  linarith

/-- Transposition of the first two axes is such a relabelling. -/
def transpose01 (d0 d1 d2 : ℕ) : Relabel d0 d1 d2 d1 d0 d2 where
  map p := (p.2.1, p.1, p.2.2)
  inv p := (p.2.1, p.1, p.2.2)
  map_mem p hp := ⟨hp.2.1, hp.1, hp.2.2⟩
  inv_mem p hp := ⟨hp.2.1, hp.1, hp.2.2⟩
  map_inv _ _ := rfl
  dist p q _ _ := by simp only [gdist]; omega

/-- Mirroring the first axis (depth read upwards or downwards) is another. -/
def mirror0 (d0 d1 d2 : ℕ) : Relabel d0 d1 d2 d0 d1 d2 where
  map p := (d0 - 1 - p.1, p.2.1, p.2.2)
  inv p := (d0 - 1 - p.1, p.2.1, p.2.2)
  map_mem p hp := ⟨by have := hp.1; simp only; omega, hp.2.1, hp.2.2⟩
  inv_mem p hp := ⟨by have := hp.1; simp only; omega, hp.2.1, hp.2.2⟩
  map_inv p hp := by
    obtain ⟨i, j, k⟩ := p
    have := hp.1
    simp only at this ⊢
    congr 1; omega
  dist p q hp hq := by
    have := hp.1
    have := hq.1
    simp only [gdist]; omega

/-- Both directions together, for a transposed 2-D array: `R` and `R'` agree up to the tolerance. -/
theorem C92_transpose {imax imax' d0 d1 d2 : ℕ} {seps grade elen m : K} {A R R' : ℕ → ℕ → ℕ → K}
    (hs : 0 ≤ seps) (he : 0 ≤ elen) (hm : IsMin d0 d1 d2 A m) (hm0 : 0 ≤ m) (hg : grade ≠ 0)
    (h : enforceGradation imax d0 d1 d2 seps A grade elen = .ok (R, true))
    (h' : enforceGradation imax' d1 d0 d2 seps (fun i j k => A j i k) grade elen = .ok (R', true))
    {i j k : ℕ} (hi : i < d0) (hj : j < d1) (hk : k < d2) :
    |R i j k - R' j i k| ≤ diameter d0 d1 d2 * (m * seps) := by
  have hm' : IsMin d1 d0 d2 (fun i j k => A j i k) m := by
    obtain ⟨h1, ⟨i, j, k⟩, ⟨hi, hj, hk⟩, e⟩ := hm
    exact ⟨fun q hq => h1 (q.2.1, q.1, q.2.2) ⟨hq.2.1, hq.1, hq.2.2⟩, (j, i, k), ⟨hj, hi, hk⟩, e⟩
  have a1 := C92_relabel (transpose01 d0 d1 d2) hs he hm hm0 hg (fun _ _ => rfl) h h'
    (p := (i, j, k)) ⟨hi, hj, hk⟩
  have a2 := C92_relabel (transpose01 d1 d0 d2) hs he hm' hm0 hg (A' := A) (fun _ _ => rfl) h' h
    (p := (j, i, k)) ⟨hj, hi, hk⟩
  have ed : diameter d1 d0 d2 = diameter d0 d1 d2 := by simp only [diameter]; omega
  rw [ed] at a2
  simp only [at3, transpose01] at a1 a2
  rw [abs_le]
  constructor <;> linarith

/-- The hypotheses are met: the field `10, 10, 1` as a column and as a row; both runs converge with the
shipped cap, so the results agree up to two tolerances. -/
example : ∃ R R' : ℕ → ℕ → ℕ → ℚ,
    enforceGradation shippedCap 3 1 1 (1 / 67108864 : ℚ) demo 1 1 = .ok (R, true) ∧
    enforceGradation shippedCap 1 3 1 (1 / 67108864 : ℚ) (fun i j k => demo j i k) 1 1 = .ok (R', true) ∧
    ∀ i < 3, |R i 0 0 - R' 0 i 0| ≤ (diameter 3 1 1 : ℕ) * (1 * (1 / 67108864)) := by
  have hup : ∀ i j k, demo i j k ≤ 10 := by intro i j k; simp only [demo]; split_ifs <;> norm_num
  have hm' : IsMin 1 3 1 (fun i j k => demo j i k) 1 := by
    refine ⟨?_, (0, 2, 0), ⟨by simp, by simp, by simp⟩, by simp [at3, demo]⟩
    rintro ⟨i, j, k⟩ -
    simp only [at3, demo]; split_ifs <;> norm_num
  obtain ⟨R, h, -⟩ := C03_shipped (seps := 1 / 67108864) (elen := 1) (grade := 1) (M := 10) (by norm_num)
    (by norm_num) demo_isMin (by norm_num) (by norm_num) (fun p _ => hup _ _ _) (by norm_num)
  obtain ⟨R', h', -⟩ := C03_shipped (seps := 1 / 67108864) (elen := 1) (grade := 1) (M := 10) (by norm_num)
    (by norm_num) hm' (by norm_num) (by norm_num) (fun p _ => hup p.2.1 p.1 p.2.2) (by norm_num)
  exact ⟨R, R', h, h', fun i hi => C92_transpose (by norm_num) (by norm_num) demo_isMin (by norm_num)
    (by norm_num) h h' hi one_pos one_pos⟩

end SM.Limgrad
