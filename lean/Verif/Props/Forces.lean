import Verif.Model.Forces
import Verif.Props.Laplace
import Verif.Props.Topology

/-!
# C54: the truss forces are balanced and repulsive
-/

namespace SM.Forces

open Np Topology FixMesh

noncomputable section
variable {d : ℕ}

/-! ### Specification -/

/-- Position of vertex `i`. -/
def pos (p : List (Fin d → ℝ)) (i : ℕ) : Fin d → ℝ := p.getD i 0

/-- The bars of a mesh: pairs `a < b` of vertices that belong to a common cell. -/
def barSet (N : ℕ) (t : List (List ℕ)) : Finset (ℕ × ℕ) :=
  (Finset.range N ×ˢ Finset.range N).filter fun e => e.1 < e.2 ∧ ∃ r ∈ t, e.1 ∈ r ∧ e.2 ∈ r

/-- Length of a bar: Euclidean distance, `eps` if the end points coincide. -/
def len (eps : ℝ) (a b : Fin d → ℝ) : ℝ := if a = b then eps else Real.sqrt (∑ k, (a k - b k) ^ 2)

/-- Midpoint. -/
def mid (a b : Fin d → ℝ) : Fin d → ℝ := fun k => (a k + b k) / 2

/-- Force exerted on the end point `a` of the bar `a b` with target length `L0`: away from `b`, or zero
if the bar is longer than its target. -/
def push (eps L0 : ℝ) (a b : Fin d → ℝ) : Fin d → ℝ := max (L0 - len eps a b) 0 • (len eps a b)⁻¹ • (a - b)

/-! ### Proof -/

theorem sum_sq_eq_zero (a b : Fin d → ℝ) : Real.sqrt (∑ k, (a k - b k) ^ 2) = 0 ↔ a = b := by
  rw [Real.sqrt_eq_zero (Finset.sum_nonneg fun k _ => sq_nonneg _)]
  rw [Finset.sum_eq_zero_iff_of_nonneg fun k _ => sq_nonneg _]
  constructor
  · intro h
    funext k
    have := h k (Finset.mem_univ k)
    have := pow_eq_zero_iff (two_ne_zero) |>.1 this
    linarith
  · rintro rfl; simp

theorem barLen_eq (eps : ℝ) (x : Bar d) : barLen eps x = len eps x.2.1 x.2.2 := by
  unfold barLen len barVec
  simp only [sum_sq_eq_zero]

theorem len_pos {eps : ℝ} (he : 0 < eps) (a b : Fin d → ℝ) : 0 < len eps a b := by
  unfold len
  split
  · exact he
  · rename_i h
    exact lt_of_le_of_ne (Real.sqrt_nonneg _) (fun hc => h ((sum_sq_eq_zero a b).1 hc.symm))

theorem len_comm (eps : ℝ) (a b : Fin d → ℝ) : len eps a b = len eps b a := by
  unfold len
  simp only [eq_comm (a := a) (b := b)]
  congr 2
  exact Finset.sum_congr rfl fun k _ => by ring

theorem mid_comm (a b : Fin d → ℝ) : mid a b = mid b a := by
  funext k; simp [mid, add_comm]

theorem push_comm (eps L0 : ℝ) (a b : Fin d → ℝ) : push eps L0 b a = - push eps L0 a b := by
  unfold push
  rw [len_comm eps b a]
  funext k
  simp only [Pi.smul_apply, Pi.sub_apply, smul_eq_mul, Pi.neg_apply]
  ring

theorem forceVec_eq (eps : ℝ) (fh : (Fin d → ℝ) → ℝ) (m s : ℝ) (x : Bar d) :
    forceVec eps fh m s x = push eps (m * s * fh (mid x.2.1 x.2.2)) x.2.1 x.2.2 := by
  funext k
  unfold forceVec barForce target push hEdge
  rw [barLen_eq]
  simp only [Pi.smul_apply, Pi.sub_apply, smul_eq_mul, barVec]
  have h1 : fh (fun k => (x.2.1 k + x.2.2 k) / 2) * m * s = m * s * fh (mid x.2.1 x.2.2) := by
    unfold mid; ring
  rw [h1]
  generalize m * s * fh (mid x.2.1 x.2.2) = L0
  by_cases h : L0 - len eps x.2.1 x.2.2 < 0
  · rw [if_pos h, max_eq_right h.le]; ring
  · rw [if_neg h, max_eq_left (not_lt.1 h)]; ring

theorem cooEntry_finRange {i j : ℕ} (a : ℕ) (f : Fin d → ℝ) (hj : j < d) :
    Laplace.cooEntry ((List.finRange d).map fun k => (a, k.1, f k)) i j = if a = i then f ⟨j, hj⟩ else 0 := by
  have : ∀ l : List (Fin d), l.Nodup →
      Laplace.cooEntry (l.map fun k => (a, k.1, f k)) i j =
        if a = i ∧ (⟨j, hj⟩ : Fin d) ∈ l then f ⟨j, hj⟩ else 0 := by
    intro l
    induction l with
    | nil => simp [Laplace.cooEntry_nil]
    | cons k l ih =>
      intro hnd
      rw [List.nodup_cons] at hnd
      rw [List.map_cons, Laplace.cooEntry_cons, ih hnd.2]
      by_cases ha : a = i
      · simp only [ha, true_and, List.mem_cons]
        by_cases hk : k.1 = j
        · have : k = ⟨j, hj⟩ := Fin.ext hk
          subst this
          rw [if_pos rfl, if_neg hnd.1, if_pos (Or.inl rfl), add_zero]
        · rw [if_neg hk, zero_add]
          have : ¬ (⟨j, hj⟩ : Fin d) = k := fun h => hk (by rw [← h])
          simp only [this, false_or]
      · simp [ha]
  rw [this _ (List.nodup_finRange d)]
  simp

theorem cooEntry_triples (eps : ℝ) (fh : (Fin d → ℝ) → ℝ) (m s : ℝ) (bars : List (Bar d)) (i : ℕ) (k : Fin d) :
    Laplace.cooEntry (bars.flatMap (triples eps fh m s)) i k =
      (bars.map fun x => (if x.1.1 = i then forceVec eps fh m s x k else 0) +
        (if x.1.2 = i then -forceVec eps fh m s x k else 0)).sum := by
  induction bars with
  | nil => simp [Laplace.cooEntry_nil]
  | cons x bars ih =>
    rw [List.flatMap_cons, Laplace.cooEntry_append, ih, List.map_cons, List.sum_cons]
    congr 1
    unfold triples
    rw [Laplace.cooEntry_append, cooEntry_finRange x.1.1 _ k.2]
    have := cooEntry_finRange (d := d) (i := i) (j := k.1) x.1.2 (fun k => -forceVec eps fh m s x k) k.2
    rw [this]

theorem bars_run {p : List (Fin d → ℝ)} {es : List (ℕ × ℕ)} (h : ∀ e ∈ es, e.1 < p.length ∧ e.2 < p.length) :
    es.mapM (barOf p) = .ok (es.map fun e => (e, pos p e.1, pos p e.2)) := by
  apply mapM_ok
  intro e he
  obtain ⟨h1, h2⟩ := h e he
  simp [barOf, item, h1, h2, bind, Except.bind, pure, Except.pure, pos]

theorem list_sum_eq {M : Type} [AddCommMonoid M] {es : List (ℕ × ℕ)} {s : Finset (ℕ × ℕ)} (hnd : es.Nodup)
    (h : ∀ e, e ∈ es ↔ e ∈ s) (f : ℕ × ℕ → M) : (es.map f).sum = ∑ e ∈ s, f e := by
  have : s = es.toFinset := by ext e; simp [h]
  rw [this, List.sum_toFinset _ hnd]

theorem computeForces_spec (hd : d ≠ 0) {eps : ℝ} (he : 0 < eps) {p : List (Fin d → ℝ)} {t : List (List ℕ)}
    {fh : (Fin d → ℝ) → ℝ} {m : ℝ} (hm : 0 ≤ m) (hr : InRange p t)
    {es : List (ℕ × ℕ)} (hes : getBars t (d + 1) = .ok es)
    (hmem : ∀ a b, (a, b) ∈ es ↔ a < b ∧ ∃ r ∈ t, a ∈ r ∧ b ∈ r) (hnd : es.Nodup)
    (hfh : ∀ e ∈ barSet p.length t, 0 < fh (mid (pos p e.1) (pos p e.2))) :
    ∃ F c, computeForces eps p t fh m = .ok F ∧ F.length = p.length ∧ 0 ≤ c ∧
      (∀ i < p.length, pos F i = ∑ e ∈ barSet p.length t,
        ((if e.1 = i then push eps (c * fh (mid (pos p e.1) (pos p e.2))) (pos p e.1) (pos p e.2) else 0) +
         (if e.2 = i then push eps (c * fh (mid (pos p e.1) (pos p e.2))) (pos p e.2) (pos p e.1) else 0))) ∧
      ∑ e ∈ barSet p.length t, (c * fh (mid (pos p e.1) (pos p e.2))) ^ d =
        m ^ d * ∑ e ∈ barSet p.length t, len eps (pos p e.1) (pos p e.2) ^ d := by
  have hin : ∀ e ∈ es, e.1 < p.length ∧ e.2 < p.length := by
    rintro ⟨a, b⟩ h
    obtain ⟨-, r, hrt, ha, hb⟩ := (hmem a b).1 h
    exact ⟨hr r hrt a ha, hr r hrt b hb⟩
  have hset : ∀ e, e ∈ es ↔ e ∈ barSet p.length t := by
    rintro ⟨a, b⟩
    simp only [barSet, Finset.mem_filter, Finset.mem_product, Finset.mem_range, hmem]
    constructor
    · intro h
      exact ⟨hin (a, b) ((hmem a b).2 h), h⟩
    · exact fun h => h.2
  set bars : List (Bar d) := es.map fun e => (e, pos p e.1, pos p e.2) with hbars
  set s := scale eps fh bars with hs
  have hrun : computeForces eps p t fh m = .ok (dense p.length (bars.flatMap (triples eps fh m s))) := by
    simp [computeForces, hes, bars_run hin, bind, Except.bind, pure, Except.pure, ← hbars, ← hs]
  have hsum : (bars.map fun x => barLen eps x ^ d).sum = ∑ e ∈ barSet p.length t, len eps (pos p e.1) (pos p e.2) ^ d := by
    rw [← list_sum_eq hnd hset, hbars, List.map_map]
    congr 1
    apply List.map_congr_left
    intro e _
    simp [barLen_eq]
  have hsumH : (bars.map fun x => hEdge fh x ^ d).sum = ∑ e ∈ barSet p.length t, fh (mid (pos p e.1) (pos p e.2)) ^ d := by
    rw [← list_sum_eq hnd hset, hbars, List.map_map]
    rfl
  have hs0 : 0 ≤ s := by
    rw [hs, scale, hsum, hsumH]
    apply Real.rpow_nonneg
    apply div_nonneg
    · exact Finset.sum_nonneg fun e _ => pow_nonneg (len_pos he _ _).le _
    · exact Finset.sum_nonneg fun e h => pow_nonneg (hfh e h).le _
  refine ⟨_, m * s, hrun, by simp [dense], mul_nonneg hm hs0, ?_, ?_⟩
  · intro i hi
    have hpos : pos (dense p.length (bars.flatMap (triples eps fh m s))) i =
        fun k : Fin d => Laplace.cooEntry (bars.flatMap (triples eps fh m s)) i k.1 := by
      unfold pos dense
      simp [List.getD, hi]
    rw [hpos]
    funext k
    rw [cooEntry_triples, hbars, List.map_map, list_sum_eq hnd hset, Finset.sum_apply]
    apply Finset.sum_congr rfl
    intro e _
    simp only [Function.comp, Pi.add_apply, forceVec_eq]
    rw [push_comm _ _ (pos p e.1) (pos p e.2)]
    congr 1
    · split <;> simp
    · split <;> simp
  · have hsd : s ^ d = (∑ e ∈ barSet p.length t, len eps (pos p e.1) (pos p e.2) ^ d) /
        (∑ e ∈ barSet p.length t, fh (mid (pos p e.1) (pos p e.2)) ^ d) := by
      rw [hs, scale, hsum, hsumH, one_div, Real.rpow_inv_natCast_pow _ hd]
      apply div_nonneg
      · exact Finset.sum_nonneg fun e _ => pow_nonneg (len_pos he _ _).le _
      · exact Finset.sum_nonneg fun e h => pow_nonneg (hfh e h).le _
    simp only [mul_pow]
    rw [← Finset.mul_sum, hsd]
    rcases (barSet p.length t).eq_empty_or_nonempty with h0 | h0
    · simp [h0]
    · have : 0 < ∑ e ∈ barSet p.length t, fh (mid (pos p e.1) (pos p e.2)) ^ d :=
        Finset.sum_pos (fun e h => pow_pos (hfh e h) _) h0
      rw [mul_assoc, div_mul_cancel₀ _ this.ne']

theorem nodup_of_lex {es : List (ℕ × ℕ)} (h : es.Pairwise fun e f => e.1 < f.1 ∨ e.1 = f.1 ∧ e.2 < f.2) : es.Nodup := by
  apply h.imp
  rintro a b h rfl
  omega

/-- What C54 promises of a force vector `F` for the vertices `p`, cells `t`, sizing function `fh` and
multiplier `m`: there is a factor `c` such that the bar between `a` and `b` has the target length
`c * fh(midpoint)`, these targets are scaled as documented, every vertex feels the sum of the pushes of its bars,
and the forces add up to zero. -/
structure Balanced (eps m : ℝ) (fh : (Fin d → ℝ) → ℝ) (p : List (Fin d → ℝ)) (t : List (List ℕ))
    (F : List (Fin d → ℝ)) : Prop where
  length : F.length = p.length
  total : ∑ i ∈ Finset.range p.length, pos F i = 0
  bars : ∃ c : ℝ, 0 ≤ c ∧
    (∀ i < p.length, pos F i = ∑ e ∈ barSet p.length t,
      ((if e.1 = i then push eps (c * fh (mid (pos p e.1) (pos p e.2))) (pos p e.1) (pos p e.2) else 0) +
       (if e.2 = i then push eps (c * fh (mid (pos p e.1) (pos p e.2))) (pos p e.2) (pos p e.1) else 0))) ∧
    ∑ e ∈ barSet p.length t, (c * fh (mid (pos p e.1) (pos p e.2))) ^ d =
      m ^ d * ∑ e ∈ barSet p.length t, len eps (pos p e.1) (pos p e.2) ^ d

theorem balanced_of (hd : d ≠ 0) {eps : ℝ} (he : 0 < eps) {p : List (Fin d → ℝ)} {t : List (List ℕ)}
    {fh : (Fin d → ℝ) → ℝ} {m : ℝ} (hm : 0 ≤ m) (hr : InRange p t)
    {es : List (ℕ × ℕ)} (hes : getBars t (d + 1) = .ok es)
    (hmem : ∀ a b, (a, b) ∈ es ↔ a < b ∧ ∃ r ∈ t, a ∈ r ∧ b ∈ r) (hnd : es.Nodup)
    (hfh : ∀ e ∈ barSet p.length t, 0 < fh (mid (pos p e.1) (pos p e.2))) :
    ∃ F, computeForces eps p t fh m = .ok F ∧ Balanced eps m fh p t F := by
  obtain ⟨F, c, hF, hl, hc, hpos, hsc⟩ := computeForces_spec hd he hm hr hes hmem hnd hfh
  refine ⟨F, hF, hl, ?_, c, hc, hpos, hsc⟩
  rw [Finset.sum_congr rfl fun i hi => hpos i (Finset.mem_range.1 hi), Finset.sum_comm]
  apply Finset.sum_eq_zero
  rintro ⟨a, b⟩ hab
  simp only [barSet, Finset.mem_filter, Finset.mem_product] at hab
  rw [Finset.sum_add_distrib, Finset.sum_ite_eq, Finset.sum_ite_eq, if_pos hab.1.1, if_pos hab.1.2, push_comm, neg_add_cancel]

/-- **C54 (2-D).** -/
theorem C54_triangles {eps : ℝ} (he : 0 < eps) {p : List (Fin 2 → ℝ)} {t : List (List ℕ)}
    {fh : (Fin 2 → ℝ) → ℝ} {m : ℝ} (hm : 0 ≤ m) (ht : Simplices 3 t) (hr : InRange p t)
    (hfh : ∀ e ∈ barSet p.length t, 0 < fh (mid (pos p e.1) (pos p e.2))) :
    ∃ F, computeForces eps p t fh m = .ok F ∧ Balanced eps m fh p t F := by
  obtain ⟨es, h1, h2, h3⟩ := C34_bars2 ht
  exact balanced_of (by decide) he hm hr h1 h2 (nodup_of_lex h3) hfh

/-- **C54 (3-D).** -/
theorem C54_tetrahedra {eps : ℝ} (he : 0 < eps) {p : List (Fin 3 → ℝ)} {t : List (List ℕ)}
    {fh : (Fin 3 → ℝ) → ℝ} {m : ℝ} (hm : 0 ≤ m) (ht : Simplices 4 t) (hr : InRange p t)
    (hfh : ∀ e ∈ barSet p.length t, 0 < fh (mid (pos p e.1) (pos p e.2))) :
    ∃ F, computeForces eps p t fh m = .ok F ∧ Balanced eps m fh p t F := by
  obtain ⟨es, h1, h2, h3⟩ := C34_bars3 ht
  exact balanced_of (by decide) he hm hr h1 h2 (nodup_of_lex h3) hfh

/-- **C54.** A push never pulls: it is a non-negative multiple of the vector from the other end point, and it is
zero for a bar at least as long as its target. -/
theorem C54_repulsive {eps : ℝ} (he : 0 < eps) (L0 : ℝ) (a b : Fin d → ℝ) :
    (∃ k : ℝ, 0 ≤ k ∧ push eps L0 a b = k • (a - b)) ∧ (L0 ≤ len eps a b → push eps L0 a b = 0) ∧
    (a ≠ b → len eps a b < L0 → ∃ k : ℝ, 0 < k ∧ push eps L0 a b = k • (a - b)) := by
  have hl := len_pos he a b
  refine ⟨⟨max (L0 - len eps a b) 0 * (len eps a b)⁻¹, by positivity, by rw [push, smul_smul]⟩, ?_, ?_⟩
  · intro h
    rw [push, max_eq_right (by linarith), zero_smul]
  · intro _ h
    refine ⟨max (L0 - len eps a b) 0 * (len eps a b)⁻¹, ?_, by rw [push, smul_smul]⟩
    rw [max_eq_left (by linarith)]
    exact mul_pos (by linarith) (inv_pos.2 hl)

/-- Concrete case: one triangle, constant size. -/
example : ∃ F, computeForces 1 [![0, 0], ![1, 0], ![0, 2]] [[0, 1, 2]] (fun _ => 1) (L0multOf 2) = .ok F ∧
    Balanced 1 (L0multOf 2) (fun _ => 1) [![0, 0], ![1, 0], ![0, 2]] [[0, 1, 2]] F :=
  C54_triangles one_pos (by unfold L0multOf; norm_num) (by intro r hr; simp at hr; subst hr; simp)
    (by intro r hr; simp at hr; subst hr; simp) (fun _ _ => one_pos)

end

end SM.Forces
