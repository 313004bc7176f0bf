import Verif.Props.Pass
import Verif.Props.Returned
import Verif.Props.CleanupSmooth
import Mathlib.Analysis.InnerProductSpace.PiL2
import Mathlib.Tactic.Linarith
import Mathlib.Tactic.Positivity

/-!
# C134: the truss always pushes outwards
-/

namespace SM.Forces

open Np Topology FixMesh

noncomputable section
variable {d : ℕ}

/-! ### Specification -/

/-- Inner product. -/
def dot (a b : Fin d → ℝ) : ℝ := ∑ k, a k * b k

/-- Sum of the squared distances of a point cloud from `o`. -/
def spread (p : List (Fin d → ℝ)) (o : Fin d → ℝ) : ℝ := ∑ i ∈ Finset.range p.length, dot (pos p i - o) (pos p i - o)

/-! ### Proof -/

theorem dot_push {eps : ℝ} (L0 : ℝ) {a b : Fin d → ℝ} (h : a ≠ b) :
    dot (push eps L0 a b) (a - b) = max (L0 - len eps a b) 0 * len eps a b := by
  have hl : len eps a b = Real.sqrt (∑ k, (a k - b k) ^ 2) := by simp [len, h]
  have h0 : len eps a b ≠ 0 := by rw [hl]; exact fun hc => h ((sum_sq_eq_zero a b).1 hc)
  have hs : ∑ k, (a k - b k) ^ 2 = len eps a b ^ 2 := by
    rw [hl, Real.sq_sqrt (Finset.sum_nonneg fun k _ => sq_nonneg _)]
  have : dot (push eps L0 a b) (a - b) = max (L0 - len eps a b) 0 * (len eps a b)⁻¹ * ∑ k, (a k - b k) ^ 2 := by
    rw [dot, Finset.mul_sum]
    refine Finset.sum_congr rfl fun k _ => ?_
    simp only [push, Pi.smul_apply, smul_eq_mul, Pi.sub_apply]
    ring
  rw [this, hs]
  field_simp

theorem dot_add_left (a b c : Fin d → ℝ) : dot (a + b) c = dot a c + dot b c := by
  simp [dot, add_mul, Finset.sum_add_distrib]

theorem dot_add_right (a b c : Fin d → ℝ) : dot c (a + b) = dot c a + dot c b := by
  simp [dot, mul_add, Finset.sum_add_distrib]

theorem dot_sub_right (a b c : Fin d → ℝ) : dot c (a - b) = dot c a - dot c b := by
  simp [dot, mul_sub, Finset.sum_sub_distrib]

theorem dot_neg_left (a c : Fin d → ℝ) : dot (-a) c = - dot a c := by
  simp [dot, Finset.sum_neg_distrib]

theorem dot_comm (a c : Fin d → ℝ) : dot a c = dot c a := by
  simp [dot, mul_comm]

theorem dot_smul_left (s : ℝ) (a c : Fin d → ℝ) : dot (s • a) c = s * dot a c := by
  simp [dot, Finset.mul_sum, mul_assoc]

theorem dot_zero_left (c : Fin d → ℝ) : dot 0 c = 0 := by simp [dot]

theorem dot_self_nonneg (a : Fin d → ℝ) : 0 ≤ dot a a := Finset.sum_nonneg fun k _ => mul_self_nonneg _

theorem dot_sum_left {ι : Type} (s : Finset ι) (f : ι → Fin d → ℝ) (c : Fin d → ℝ) :
    dot (∑ i ∈ s, f i) c = ∑ i ∈ s, dot (f i) c := by
  classical
  induction s using Finset.induction_on with
  | empty => simp [dot_zero_left]
  | insert a s ha ih => rw [Finset.sum_insert ha, Finset.sum_insert ha, dot_add_left, ih]

theorem pos_inj {p : List (Fin d → ℝ)} (hn : p.Nodup) {i j : ℕ} (hi : i < p.length) (hj : j < p.length) (h : pos p i = pos p j) : i = j := by
  have h1 : pos p i = p[i] := by simp [pos, List.getD, hi]
  have h2 : pos p j = p[j] := by simp [pos, List.getD, hj]
  rw [h1, h2] at h
  exact (hn.getElem_inj_iff).1 h

/-- Everything C134 needs of the forces: the virial is the sum of the compressions times the lengths. -/
theorem virial {eps m : ℝ} {fh : (Fin d → ℝ) → ℝ} {p : List (Fin d → ℝ)} {t : List (List ℕ)} {F : List (Fin d → ℝ)}
    (hB : Balanced eps m fh p t F) (hn : p.Nodup) :
    ∃ c : ℝ, 0 ≤ c ∧
      (∑ e ∈ barSet p.length t, (c * fh (mid (pos p e.1) (pos p e.2))) ^ d =
        m ^ d * ∑ e ∈ barSet p.length t, len eps (pos p e.1) (pos p e.2) ^ d) ∧
      ∀ o, ∑ i ∈ Finset.range p.length, dot (pos F i) (pos p i - o) = ∑ e ∈ barSet p.length t,
        max (c * fh (mid (pos p e.1) (pos p e.2)) - len eps (pos p e.1) (pos p e.2)) 0 * len eps (pos p e.1) (pos p e.2) := by
  obtain ⟨c, hc, hF, hs⟩ := hB.bars
  refine ⟨c, hc, hs, fun o => ?_⟩
  rw [Finset.sum_congr rfl fun i hi => by rw [hF i (Finset.mem_range.1 hi), dot_sum_left], Finset.sum_comm]
  refine Finset.sum_congr rfl ?_
  rintro ⟨a, b⟩ hab
  simp only [barSet, Finset.mem_filter, Finset.mem_product, Finset.mem_range] at hab
  obtain ⟨⟨ha, hb⟩, hlt, -⟩ := hab
  have hne : pos p a ≠ pos p b := fun h => hlt.ne (pos_inj hn ha hb h)
  rw [← dot_push _ hne]
  have key : ∀ i, dot ((if a = i then push eps (c * fh (mid (pos p a) (pos p b))) (pos p a) (pos p b) else 0) +
      (if b = i then push eps (c * fh (mid (pos p a) (pos p b))) (pos p b) (pos p a) else 0)) (pos p i - o) =
      (if a = i then dot (push eps (c * fh (mid (pos p a) (pos p b))) (pos p a) (pos p b)) (pos p a - o) else 0) -
      (if b = i then dot (push eps (c * fh (mid (pos p a) (pos p b))) (pos p a) (pos p b)) (pos p b - o) else 0) := by
    intro i
    rw [dot_add_left, push_comm _ _ (pos p a) (pos p b)]
    by_cases h1 : a = i <;> by_cases h2 : b = i <;> simp [h1, h2, dot_zero_left, dot_neg_left, sub_eq_add_neg]
  simp only [key]
  rw [Finset.sum_sub_distrib, Finset.sum_ite_eq, Finset.sum_ite_eq, if_pos (Finset.mem_range.2 ha), if_pos (Finset.mem_range.2 hb),
    ← dot_sub_right]
  congr 1
  funext k; simp

theorem barSet_nonempty {N n : ℕ} {t : List (List ℕ)} (ht : t ≠ []) (hs : Simplices n t) (h2 : 2 ≤ n) (hr : ∀ r ∈ t, ∀ i ∈ r, i < N) :
    (barSet N t).Nonempty := by
  obtain ⟨r, rs, rfl⟩ := List.exists_cons_of_ne_nil ht
  have h := hs r (by simp)
  have hrr := hr r (by simp)
  match r, h, hrr with
  | [], h, _ => simp at h; omega
  | [_], h, _ => simp at h; omega
  | a :: b :: l, h, hrr =>
    have hne : a ≠ b := by
      rintro rfl
      have := h.2
      simp at this
    rcases lt_or_gt_of_ne hne with hl | hl
    · exact ⟨(a, b), by simp only [barSet, Finset.mem_filter, Finset.mem_product, Finset.mem_range]
                        exact ⟨⟨hrr a (by simp), hrr b (by simp)⟩, hl, a :: b :: l, by simp, by simp, by simp⟩⟩
    · exact ⟨(b, a), by simp only [barSet, Finset.mem_filter, Finset.mem_product, Finset.mem_range]
                        exact ⟨⟨hrr b (by simp), hrr a (by simp)⟩, hl, a :: b :: l, by simp, by simp, by simp⟩⟩

/-- **C134 (virial).** Distinct vertices, at least one cell, positive sizes, pressure factor above 1: with respect to every origin the forces
do positive work on the positions. -/
theorem C134_virial (hd : d ≠ 0) {eps m : ℝ} (he : 0 < eps) (hm : 1 < m) {fh : (Fin d → ℝ) → ℝ} {p : List (Fin d → ℝ)} {t : List (List ℕ)}
    {F : List (Fin d → ℝ)} (hB : Balanced eps m fh p t F) (hn : p.Nodup) (ht : t ≠ []) (hs : Simplices (d + 1) t) (hr : InRange p t)
    (hfh : ∀ x, 0 < fh x) (o : Fin d → ℝ) : 0 < ∑ i ∈ Finset.range p.length, dot (pos F i) (pos p i - o) := by
  obtain ⟨c, hc, hsc, hv⟩ := virial hB hn
  have hne := barSet_nonempty ht hs (by omega) hr
  rw [hv o]
  have hL : 0 < ∑ e ∈ barSet p.length t, len eps (pos p e.1) (pos p e.2) ^ d :=
    Finset.sum_pos (fun e _ => pow_pos (len_pos he _ _) _) hne
  have hlt : ∑ e ∈ barSet p.length t, len eps (pos p e.1) (pos p e.2) ^ d <
      ∑ e ∈ barSet p.length t, (c * fh (mid (pos p e.1) (pos p e.2))) ^ d := by
    rw [hsc]
    exact lt_mul_of_one_lt_left hL (one_lt_pow₀ hm hd)
  obtain ⟨e, hemem, hlt⟩ := Finset.exists_lt_of_sum_lt hlt
  have hlt := lt_of_pow_lt_pow_left₀ d (mul_nonneg hc (hfh _).le) hlt
  refine Finset.sum_pos' (fun e _ => mul_nonneg (le_max_right _ _) (len_pos he _ _).le) ⟨e, hemem, mul_pos ?_ (len_pos he _ _)⟩
  exact lt_max_of_lt_left (by linarith)

/-- **C134 (never at rest).** Whatever vertex is held, another one feels a force. -/
theorem C134_never_at_rest (hd : d ≠ 0) {eps m : ℝ} (he : 0 < eps) (hm : 1 < m) {fh : (Fin d → ℝ) → ℝ} {p : List (Fin d → ℝ)}
    {t : List (List ℕ)} {F : List (Fin d → ℝ)} (hB : Balanced eps m fh p t F) (hn : p.Nodup) (ht : t ≠ []) (hs : Simplices (d + 1) t)
    (hr : InRange p t) (hfh : ∀ x, 0 < fh x) (j : ℕ) : ∃ i < p.length, i ≠ j ∧ pos F i ≠ 0 := by
  by_contra hcon
  push Not at hcon
  have h := C134_virial hd he hm hB hn ht hs hr hfh (pos p j)
  rw [Finset.sum_eq_zero] at h
  · exact lt_irrefl _ h
  · intro i hi
    by_cases hij : i = j
    · subst hij; simp [dot]
    · rw [hcon i (Finset.mem_range.1 hi) hij, dot_zero_left]

/-! ### How large the forces are -/

/-- Length of a force. -/
def mag (f : Fin d → ℝ) : ℝ := Real.sqrt (∑ k, f k ^ 2)

theorem mag_eq (f : Fin d → ℝ) : mag f = ‖WithLp.toLp 2 f‖ := by
  simp [mag, EuclideanSpace.norm_eq]

theorem mag_add (a b : Fin d → ℝ) : mag (a + b) ≤ mag a + mag b := by
  simp only [mag_eq, WithLp.toLp_add]; exact norm_add_le _ _

theorem mag_sum {ι : Type} (s : Finset ι) (f : ι → Fin d → ℝ) : mag (∑ i ∈ s, f i) ≤ ∑ i ∈ s, mag (f i) := by
  classical
  induction s using Finset.induction_on with
  | empty => simp [mag]
  | insert a s ha ih =>
    rw [Finset.sum_insert ha, Finset.sum_insert ha]
    exact (mag_add _ _).trans (by gcongr)

theorem mag_smul (s : ℝ) (f : Fin d → ℝ) : mag (s • f) = |s| * mag f := by
  simp only [mag_eq, WithLp.toLp_smul, norm_smul, Real.norm_eq_abs]

/-- A push is no longer than the compression of its bar. -/
theorem mag_push {eps : ℝ} (he : 0 < eps) (L0 : ℝ) (a b : Fin d → ℝ) : mag (push eps L0 a b) ≤ max (L0 - len eps a b) 0 := by
  have hl := len_pos he a b
  have h1 : mag (a - b) ≤ len eps a b := by
    unfold len
    split
    · rename_i h; simp [h, mag, he.le]
    · exact le_rfl
  rw [push, mag_smul, mag_smul, abs_of_nonneg (le_max_right _ _), abs_of_pos (inv_pos.2 hl)]
  have : (len eps a b)⁻¹ * mag (a - b) ≤ 1 := by
    rw [inv_mul_le_iff₀ hl, mul_one]; exact h1
  nlinarith [le_max_right (L0 - len eps a b) 0]

/-- The bars that end in vertex `i`. -/
def barsAt (N : ℕ) (t : List (List ℕ)) (i : ℕ) : Finset (ℕ × ℕ) := (barSet N t).filter fun e => e.1 = i ∨ e.2 = i

/-- **C134 (bounded).** If no bar is longer than `R` times the size wanted at its midpoint, no size exceeds `H` and no vertex has more than `D` bars,
then no force exceeds `D * m * R * H`. -/
theorem C134_bounded (hd : d ≠ 0) {eps m R H : ℝ} {D : ℕ} (he : 0 < eps) (hm : 0 ≤ m) {fh : (Fin d → ℝ) → ℝ} {p : List (Fin d → ℝ)}
    {t : List (List ℕ)} {F : List (Fin d → ℝ)} (hB : Balanced eps m fh p t F) (hfh : ∀ x, 0 < fh x)
    (hR : ∀ e ∈ barSet p.length t, len eps (pos p e.1) (pos p e.2) ≤ R * fh (mid (pos p e.1) (pos p e.2)))
    (hH : ∀ e ∈ barSet p.length t, fh (mid (pos p e.1) (pos p e.2)) ≤ H)
    (hD : ∀ i < p.length, (barsAt p.length t i).card ≤ D) (hR0 : 0 ≤ R) (hH0 : 0 ≤ H) :
    ∀ i < p.length, mag (pos F i) ≤ D * (m * R * H) := by
  intro i hi
  obtain ⟨c, hc, hF, hs⟩ := hB.bars
  have hcR : (barSet p.length t).Nonempty → c ≤ m * R := by
    intro hne
    have hp : 0 < ∑ e ∈ barSet p.length t, fh (mid (pos p e.1) (pos p e.2)) ^ d :=
      Finset.sum_pos (fun e _ => pow_pos (hfh _) _) hne
    have h1 : c ^ d * ∑ e ∈ barSet p.length t, fh (mid (pos p e.1) (pos p e.2)) ^ d ≤
        (m * R) ^ d * ∑ e ∈ barSet p.length t, fh (mid (pos p e.1) (pos p e.2)) ^ d := by
      calc _ = ∑ e ∈ barSet p.length t, (c * fh (mid (pos p e.1) (pos p e.2))) ^ d := by
            rw [Finset.mul_sum]; exact Finset.sum_congr rfl fun e _ => (mul_pow _ _ _).symm
        _ = m ^ d * ∑ e ∈ barSet p.length t, len eps (pos p e.1) (pos p e.2) ^ d := hs
        _ ≤ m ^ d * ∑ e ∈ barSet p.length t, (R * fh (mid (pos p e.1) (pos p e.2))) ^ d := by
            refine mul_le_mul_of_nonneg_left (Finset.sum_le_sum fun e he' => ?_) (pow_nonneg hm _)
            exact pow_le_pow_left₀ (len_pos he _ _).le (hR e he') _
        _ = _ := by
            rw [mul_pow, mul_assoc]
            congr 1
            rw [Finset.mul_sum]
            exact Finset.sum_congr rfl fun e _ => mul_pow _ _ _
    exact le_of_pow_le_pow_left₀ hd (mul_nonneg hm hR0) (le_of_mul_le_mul_right h1 hp)
  rw [hF i hi]
  have hb : ∀ e ∈ barSet p.length t, mag ((if e.1 = i then push eps (c * fh (mid (pos p e.1) (pos p e.2))) (pos p e.1) (pos p e.2) else 0) +
       (if e.2 = i then push eps (c * fh (mid (pos p e.1) (pos p e.2))) (pos p e.2) (pos p e.1) else 0)) ≤
       if e.1 = i ∨ e.2 = i then m * R * H else 0 := by
    intro e hemem
    have hcmp : ∀ a b : Fin d → ℝ, max (c * fh (mid (pos p e.1) (pos p e.2)) - len eps a b) 0 ≤ m * R * H := by
      intro a b
      refine max_le ?_ (by positivity)
      have h1 := hcR ⟨e, hemem⟩
      have h2 := hH e hemem
      have h3 := (len_pos he a b).le
      have h4 : c * fh (mid (pos p e.1) (pos p e.2)) ≤ m * R * H := mul_le_mul h1 h2 (hfh _).le (mul_nonneg hm hR0)
      linarith
    have hlt : e.1 < e.2 := by
      simp only [barSet, Finset.mem_filter] at hemem; exact hemem.2.1
    by_cases h1 : e.1 = i
    · have h2 : e.2 ≠ i := by omega
      simp only [h1, h2, if_true, if_false, add_zero, true_or]
      rw [← h1]
      exact (mag_push he _ _ _).trans (hcmp _ _)
    · by_cases h2 : e.2 = i
      · simp only [h1, h2, if_true, if_false, zero_add, or_true]
        rw [← h2]
        exact (mag_push he _ _ _).trans (hcmp _ _)
      · simp [h1, h2, mag]
  refine (mag_sum _ _).trans ((Finset.sum_le_sum hb).trans ?_)
  rw [← Finset.sum_filter, Finset.sum_const, nsmul_eq_mul]
  refine mul_le_mul_of_nonneg_right ?_ (by positivity)
  exact_mod_cast hD i hi

end

end SM.Forces

namespace SM.MeshLoop

open Np Topology FixMesh Forces

noncomputable section
variable {d : ℕ} {κ ρ : Type} [LinearOrder κ] [LinearOrder ρ]

theorem pos_displaced {dt : ℝ} {held : List ℕ} {p F : List (Fin d → ℝ)} {i : ℕ} (hi : i < p.length) :
    pos (displaced dt held p F) i = if i ∈ held then pos p i else pos p i + dt • pos F i := by
  rw [pos, displaced]
  simp [List.getD, hi]

/-- The displacement of one pass moves the cloud away from the only held vertex (or, if there is none, from every point). -/
theorem spread_displaced (hd : d ≠ 0) {eps m dt : ℝ} (he : 0 < eps) (hm : 1 < m) (hdt : 0 < dt) {fh : (Fin d → ℝ) → ℝ} {p : List (Fin d → ℝ)}
    {t : List (List ℕ)} {F : List (Fin d → ℝ)} (hB : Balanced eps m fh p t F) (hn : p.Nodup) (ht : t ≠ []) (hs : Simplices (d + 1) t)
    (hr : InRange p t) (hfh : ∀ x, 0 < fh x) {held : List ℕ} {o : Fin d → ℝ} (ho : ∀ j ∈ held, pos p j = o) :
    spread p o < spread (displaced dt held p F) o := by
  have hlen : (displaced dt held p F).length = p.length := by simp [displaced]
  have hv := C134_virial hd he hm hB hn ht hs hr hfh o
  have key : ∀ i ∈ Finset.range p.length, dot (pos p i - o) (pos p i - o) + 2 * dt * dot (pos F i) (pos p i - o) ≤
      dot (pos (displaced dt held p F) i - o) (pos (displaced dt held p F) i - o) := by
    intro i hi
    rw [pos_displaced (Finset.mem_range.1 hi)]
    split
    · rename_i h
      rw [ho i h]; simp [dot]
    · have : pos p i + dt • pos F i - o = (pos p i - o) + dt • pos F i := by abel
      rw [this, dot_add_left, dot_add_right, dot_add_right, dot_comm (pos p i - o) (dt • pos F i), dot_smul_left, dot_smul_left,
        dot_comm (pos F i) (dt • pos F i), dot_smul_left]
      have h1 := dot_self_nonneg (pos F i)
      have h2 : 0 ≤ dt * (dt * dot (pos F i) (pos F i)) := by positivity
      linarith
  have h := Finset.sum_le_sum key
  rw [Finset.sum_add_distrib, ← Finset.mul_sum] at h
  rw [spread, spread, hlen]
  have : 0 < 2 * dt * ∑ i ∈ Finset.range p.length, dot (pos F i) (pos p i - o) := by positivity
  linarith

/-- Some cell of the triangulation has its centroid well inside the domain. -/
def KeepsACell (E : Env d κ ρ) (s : State d) : Prop :=
  ∃ r ∈ (E.dt s.p).2, ∃ vs, take (E.dt s.p).1 r = .ok vs ∧ E.fd (fun k => (vs.map fun v => v k).sum / ((d : ℝ) + 1)) < -E.geps

theorem expands (hd : d ≠ 0) {E : Env d κ ρ} {m : ℝ} {s s' : State d} (h : Relaxes E m s s') (hm : 1 < m) (he : 0 < E.eps) (hdt : 0 < E.deltaT)
    (hs : Simplices (d + 1) (E.dt s.p).2) (hr : InRange (E.dt s.p).1 (E.dt s.p).2) (hn : (E.dt s.p).1.Nodup) (hk : KeepsACell E s)
    (hfh : ∀ x, 0 < E.fh x) : ∃ q held, E.pfix.mapM (closestNode (E.dt s.p).1) = .ok held ∧ q.length = (E.dt s.p).1.length ∧
      s'.p = q.map (pulled E.fd E.subs E.deps E.h0) ∧
      ∀ o, (∀ j ∈ held, pos (E.dt s.p).1 j = o) → spread (E.dt s.p).1 o < spread q o := by
  obtain ⟨t, F, held, hmem, hB, hheld, hp⟩ := h
  refine ⟨_, held, hheld, by simp [displaced], hp, fun o ho => ?_⟩
  refine spread_displaced hd he hm hdt hB hn ?_ (fun r h => hs r ((hmem r).1 h).1) (fun r h => hr r ((hmem r).1 h).1) hfh ho
  obtain ⟨r, h1, h2⟩ := hk
  exact List.ne_nil_of_mem ((hmem r).2 ⟨h1, h2⟩)

theorem mapM_length {α β : Type} {f : α → Except String β} : ∀ {l : List α} {r : List β}, l.mapM f = .ok r → r.length = l.length
  | l, r, h => ((mapM_forall₂.1 h).length_eq).symm

/-- **C134 (a pass without fixed points).** Before the projection, the vertices have moved away from every point of space, in the mean square. -/
theorem C134_pass (hd : d ≠ 0) {E : Env d κ ρ} {m : ℝ} {s s' : State d} (h : Relaxes E m s s') (hm : 1 < m) (he : 0 < E.eps) (hdt : 0 < E.deltaT)
    (hs : Simplices (d + 1) (E.dt s.p).2) (hr : InRange (E.dt s.p).1 (E.dt s.p).2) (hn : (E.dt s.p).1.Nodup) (hk : KeepsACell E s)
    (hfh : ∀ x, 0 < E.fh x) (hfix : E.pfix = []) : ∃ q, q.length = (E.dt s.p).1.length ∧
      s'.p = q.map (pulled E.fd E.subs E.deps E.h0) ∧ ∀ o, spread (E.dt s.p).1 o < spread q o := by
  obtain ⟨q, held, hheld, hq, hp, hsp⟩ := expands hd h hm he hdt hs hr hn hk hfh
  refine ⟨q, hq, hp, fun o => hsp o ?_⟩
  rw [hfix] at hheld
  simp only [List.mapM_nil, pure, Except.pure, Except.ok.injEq] at hheld
  subst hheld
  simp

/-- **C134 (equilibria).** Without subdomains and with at most one fixed point, a pass that leaves every vertex where it was has pushed some vertex
out of the domain and brought it back by a Newton step. -/
theorem C134_equilibrium (hd : d ≠ 0) {E : Env d κ ρ} {m : ℝ} {s s' : State d} (h : Relaxes E m s s') (hm : 1 < m) (he : 0 < E.eps)
    (hdt : 0 < E.deltaT) (hs : Simplices (d + 1) (E.dt s.p).2) (hr : InRange (E.dt s.p).1 (E.dt s.p).2) (hn : (E.dt s.p).1.Nodup)
    (hk : KeepsACell E s) (hfh : ∀ x, 0 < E.fh x) (hfix : E.pfix.length ≤ 1) (hsubs : E.subs = []) (hrest : s'.p = (E.dt s.p).1) :
    ∃ i < s'.p.length, ∃ x, 0 < E.fd x ∧ pos s'.p i = Project.newton E.fd E.deps 1 x := by
  obtain ⟨q, held, hheld, hq, hp, hsp⟩ := expands hd h hm he hdt hs hr hn hk hfh
  by_contra hcon
  push Not at hcon
  have hlen : s'.p.length = q.length := by rw [hp]; simp
  have hqp : q = (E.dt s.p).1 := by
    rw [← hrest, hp]
    refine (List.map_id q).symm.trans (List.map_congr_left fun x hx => ?_)
    obtain ⟨i, hi, rfl⟩ := List.getElem_of_mem hx
    have h1 := hcon i (by omega) q[i]
    have e : pos s'.p i = pulled E.fd E.subs E.deps E.h0 q[i] := by rw [hp]; simp [pos, List.getD, hi]
    by_cases hpos : 0 < E.fd q[i]
    · refine absurd ?_ (h1 hpos)
      rw [e]
      simp only [hsubs, pulled, List.foldl_nil, if_pos hpos]
    · simp only [hsubs, pulled, List.foldl_nil, if_neg hpos, id_eq]
  have hl := mapM_length hheld
  have : ∃ o, ∀ j ∈ held, pos (E.dt s.p).1 j = o := by
    match held, hl with
    | [], _ => exact ⟨0, by simp⟩
    | [j], _ => exact ⟨pos (E.dt s.p).1 j, by simp⟩
    | _ :: _ :: _, hl => simp at hl; omega
  obtain ⟨o, ho⟩ := this
  exact lt_irrefl _ (hqp ▸ hsp o ho)

/-! ### The movement check never fires -/

/-- The bars of the triangulation of `s` are at most `R` times as long as wanted, the wanted sizes are at most `H`, and no vertex has more than
`D` bars. -/
structure Tame (E : Env d κ ρ) (s : State d) (R H : ℝ) (D : ℕ) : Prop where
  ratio : ∀ e ∈ barSet (E.dt s.p).1.length (E.dt s.p).2, len E.eps (pos (E.dt s.p).1 e.1) (pos (E.dt s.p).1 e.2) ≤
    R * E.fh (mid (pos (E.dt s.p).1 e.1) (pos (E.dt s.p).1 e.2))
  size : ∀ e ∈ barSet (E.dt s.p).1.length (E.dt s.p).2, E.fh (mid (pos (E.dt s.p).1 e.1) (pos (E.dt s.p).1 e.2)) ≤ H
  degree : ∀ i < (E.dt s.p).1.length, (barsAt (E.dt s.p).1.length (E.dt s.p).2 i).card ≤ D

/-- **C134 (virial of the computed forces, 2-D).** -/
theorem C134_forces2 {eps : ℝ} (he : 0 < eps) {p : List (Fin 2 → ℝ)} {t : List (List ℕ)} {fh : (Fin 2 → ℝ) → ℝ} {m : ℝ} (hm : 1 < m) (hs : Simplices 3 t)
    (hr : InRange p t) (hn : p.Nodup) (ht : t ≠ []) (hfh : ∀ x, 0 < fh x) :
    ∃ F, computeForces eps p t fh m = .ok F ∧ F.length = p.length ∧ ∀ o, 0 < ∑ i ∈ Finset.range p.length, dot (pos F i) (pos p i - o) := by
  obtain ⟨F, h, hB⟩ := C54_triangles he (zero_le_one.trans hm.le) hs hr fun _ _ => hfh _
  exact ⟨F, h, hB.1, fun o => C134_virial two_ne_zero he hm hB hn ht hs hr hfh o⟩

/-- **C134 (virial of the computed forces, 3-D).** -/
theorem C134_forces3 {eps : ℝ} (he : 0 < eps) {p : List (Fin 3 → ℝ)} {t : List (List ℕ)} {fh : (Fin 3 → ℝ) → ℝ} {m : ℝ} (hm : 1 < m) (hs : Simplices 4 t)
    (hr : InRange p t) (hn : p.Nodup) (ht : t ≠ []) (hfh : ∀ x, 0 < fh x) :
    ∃ F, computeForces eps p t fh m = .ok F ∧ F.length = p.length ∧ ∀ o, 0 < ∑ i ∈ Finset.range p.length, dot (pos F i) (pos p i - o) := by
  obtain ⟨F, h, hB⟩ := C54_tetrahedra he (zero_le_one.trans hm.le) hs hr fun _ _ => hfh _
  exact ⟨F, h, hB.1, fun o => C134_virial three_ne_zero he hm hB hn ht hs hr hfh o⟩

/-- **C134 (a pass of a serial 2-D run without fixed points).** -/
theorem C134_step2 {E : Env 2 κ ρ} (hser : E.size = 1) (he : 0 < E.eps) (hdt : 0 < E.deltaT) {s s' : State 2} (h : step E s = .running s')
    (hs : Simplices 3 (E.dt s.p).2) (hr : InRange (E.dt s.p).1 (E.dt s.p).2) (hn : (E.dt s.p).1.Nodup) (hk : KeepsACell E s)
    (hfh : ∀ x, 0 < E.fh x) (hfix : E.pfix = []) : ∃ q, q.length = (E.dt s.p).1.length ∧
      s'.p = q.map (pulled E.fd E.subs E.deps E.h0) ∧ ∀ o, spread (E.dt s.p).1 o < spread q o :=
  C134_pass two_ne_zero (C54_pass2 hser he h hs hr hfh) (by norm_num) he hdt hs hr hn hk hfh hfix

/-- **C134 (a pass of a serial 3-D run without fixed points).** -/
theorem C134_step3 {E : Env 3 κ ρ} (hser : E.size = 1) (he : 0 < E.eps) (hdt : 0 < E.deltaT) {s s' : State 3} (h : step E s = .running s')
    (hs : Simplices 4 (E.dt s.p).2) (hr : InRange (E.dt s.p).1 (E.dt s.p).2) (hn : (E.dt s.p).1.Nodup) (hk : KeepsACell E s)
    (hfh : ∀ x, 0 < E.fh x) (hfix : E.pfix = []) : ∃ q, q.length = (E.dt s.p).1.length ∧
      s'.p = q.map (pulled E.fd E.subs E.deps E.h0) ∧ ∀ o, spread (E.dt s.p).1 o < spread q o :=
  C134_pass three_ne_zero (C54_pass3 hser he h hs hr hfh) (by norm_num) he hdt hs hr hn hk hfh hfix

/-- **C134 (equilibria of a serial 2-D run).** -/
theorem C134_rest2 {E : Env 2 κ ρ} (hser : E.size = 1) (he : 0 < E.eps) (hdt : 0 < E.deltaT) {s s' : State 2} (h : step E s = .running s')
    (hs : Simplices 3 (E.dt s.p).2) (hr : InRange (E.dt s.p).1 (E.dt s.p).2) (hn : (E.dt s.p).1.Nodup) (hk : KeepsACell E s)
    (hfh : ∀ x, 0 < E.fh x) (hfix : E.pfix.length ≤ 1) (hsubs : E.subs = []) (hrest : s'.p = (E.dt s.p).1) :
    ∃ i < s'.p.length, ∃ x, 0 < E.fd x ∧ pos s'.p i = Project.newton E.fd E.deps 1 x :=
  C134_equilibrium two_ne_zero (C54_pass2 hser he h hs hr hfh) (by norm_num) he hdt hs hr hn hk hfh hfix hsubs hrest

/-- **C134 (equilibria of a serial 3-D run).** -/
theorem C134_rest3 {E : Env 3 κ ρ} (hser : E.size = 1) (he : 0 < E.eps) (hdt : 0 < E.deltaT) {s s' : State 3} (h : step E s = .running s')
    (hs : Simplices 4 (E.dt s.p).2) (hr : InRange (E.dt s.p).1 (E.dt s.p).2) (hn : (E.dt s.p).1.Nodup) (hk : KeepsACell E s)
    (hfh : ∀ x, 0 < E.fh x) (hfix : E.pfix.length ≤ 1) (hsubs : E.subs = []) (hrest : s'.p = (E.dt s.p).1) :
    ∃ i < s'.p.length, ∃ x, 0 < E.fd x ∧ pos s'.p i = Project.newton E.fd E.deps 1 x :=
  C134_equilibrium three_ne_zero (C54_pass3 hser he h hs hr hfh) (by norm_num) he hdt hs hr hn hk hfh hfix hsubs hrest

theorem barSet_mono {N : ℕ} {t t' : List (List ℕ)} (h : t.Sublist t') : barSet N t ⊆ barSet N t' := by
  intro e he
  simp only [barSet, Finset.mem_filter] at he ⊢
  obtain ⟨h1, h2, r, hr, h3⟩ := he
  exact ⟨h1, h2, r, h.subset hr, h3⟩

theorem runs (hd : d ≠ 0) {E : Env d κ ρ} (hser : E.size = 1) (he : 0 < E.eps) (hdt : 0 ≤ E.deltaT) {s : State d} {m R H : ℝ} {D : ℕ}
    (hm : L0multOf d = m) (hm0 : 0 ≤ m) (hcount : (s.count : ℝ) ≠ E.maxIter - 1) (hne : (E.dt s.p).1 ≠ [])
    (hr : InRange (E.dt s.p).1 (E.dt s.p).2) (hfh : ∀ x, 0 < E.fh x)
    (hb : ∀ t, t.Sublist (E.dt s.p).2 → ∃ F, computeForces E.eps (E.dt s.p).1 t E.fh m = .ok F ∧ Balanced E.eps m E.fh (E.dt s.p).1 t F)
    (hT : Tame E s R H D) (hR0 : 0 ≤ R) (hH0 : 0 ≤ H) (hlt : E.deltaT * (D * (m * R * H)) < 1000 * E.h0) : ∃ s', step E s = .running s' := by
  subst hm
  have hlen : 0 < (E.dt s.p).1.length := List.length_pos_of_ne_nil hne
  obtain ⟨held, hheld⟩ := mapM_exists (f := closestNode (E.dt s.p).1) (l := E.pfix) fun f _ => by
    obtain ⟨i, hi, -⟩ := Laplace.closest_ok hlen f fun i : Fin (E.dt s.p).1.length => (E.dt s.p).1.get i
    exact ⟨_, hi⟩
  obtain ⟨t, hrem⟩ := removeOutside_ok (fd := E.fd) (g := E.geps) hr
  have hsub := removeOutside_sublist hrem
  obtain ⟨F, hF, hB⟩ := hb t hsub
  have hmag : ∀ f ∈ zeroAt held F, E.deltaT * Real.sqrt (∑ k, f k ^ 2) < 1000 * E.h0 := by
    intro f hf
    have hnn : 0 ≤ E.deltaT * (D * (L0multOf d * R * H)) := by positivity
    obtain ⟨fi, hfi, rfl⟩ := List.mem_map.1 hf
    split
    · simp; linarith
    · obtain ⟨i, hi, rfl⟩ := List.getElem_of_mem hfi
      simp only [List.length_zipIdx] at hi
      have hil : i < (E.dt s.p).1.length := by rw [← hB.length]; exact hi
      have h := C134_bounded hd he hm0 hB hfh (fun e he' => hT.ratio e (barSet_mono hsub he')) (fun e he' => hT.size e (barSet_mono hsub he'))
        (fun i hi => (Finset.card_le_card (Finset.filter_subset_filter _ (barSet_mono hsub))).trans (hT.degree i hi)) hR0 hH0 i hil
      have e : pos F i = F[i] := by simp [pos, List.getD, hi]
      rw [e] at h
      simp only [List.getElem_zipIdx]
      exact (mul_le_mul_of_nonneg_left h hdt).trans_lt hlt
  have hempty : (zeroAt held F).isEmpty = false := by
    rw [← Bool.not_eq_true]
    intro h
    rw [List.isEmpty_iff] at h
    have : (zeroAt held F).length = (E.dt s.p).1.length := by simp [zeroAt, hB.length]
    rw [h] at this
    simp at this
    omega
  have htop : topology E s = .ok ((E.dt s.p).1, t, held, [], 0) := by
    simp only [topology, hheld, hser, gt_iff_lt, lt_irrefl, if_false, bind, Except.bind, pure, Except.pure, hrem]
  obtain ⟨q, hq⟩ : ∃ q, move E (E.dt s.p).1 t held [] 0 = .ok q := by
    unfold move
    simp only [hF, hser, gt_iff_lt, lt_irrefl, if_false, bind, Except.bind, pure, Except.pure, hempty, Bool.false_eq_true, if_pos hmag]
    split <;> exact ⟨_, rfl⟩
  refine ⟨⟨s.count + 1, q, s.tri + 1⟩, ?_⟩
  simp only [step, htop, hq, if_neg hcount]

/-- **C134 (no convergence error, 2-D).** -/
theorem C134_runs2 {E : Env 2 κ ρ} (hser : E.size = 1) (he : 0 < E.eps) (hdt : 0 ≤ E.deltaT) {s : State 2} {R H : ℝ} {D : ℕ}
    (hcount : (s.count : ℝ) ≠ E.maxIter - 1) (hne : (E.dt s.p).1 ≠ []) (ht : Simplices 3 (E.dt s.p).2)
    (hr : InRange (E.dt s.p).1 (E.dt s.p).2) (hfh : ∀ x, 0 < E.fh x) (hT : Tame E s R H D) (hR0 : 0 ≤ R) (hH0 : 0 ≤ H)
    (hlt : E.deltaT * (D * (6 / 5 * R * H)) < 1000 * E.h0) : ∃ s', step E s = .running s' :=
  runs two_ne_zero hser he hdt (by norm_num [L0multOf]) (by norm_num) hcount hne hr hfh (fun _ hsub =>
    C54_triangles he (by norm_num) (fun r hr' => ht r (hsub.subset hr')) (fun r hr' => hr r (hsub.subset hr')) fun _ _ => hfh _) hT hR0 hH0 hlt

/-- **C134 (no convergence error, 3-D).** -/
theorem C134_runs3 {E : Env 3 κ ρ} (hser : E.size = 1) (he : 0 < E.eps) (hdt : 0 ≤ E.deltaT) {s : State 3} {R H : ℝ} {D : ℕ}
    (hcount : (s.count : ℝ) ≠ E.maxIter - 1) (hne : (E.dt s.p).1 ≠ []) (ht : Simplices 4 (E.dt s.p).2)
    (hr : InRange (E.dt s.p).1 (E.dt s.p).2) (hfh : ∀ x, 0 < E.fh x) (hT : Tame E s R H D) (hR0 : 0 ≤ R) (hH0 : 0 ≤ H)
    (hlt : E.deltaT * (D * (11 / 10 * R * H)) < 1000 * E.h0) : ∃ s', step E s = .running s' :=
  runs three_ne_zero hser he hdt (by norm_num [L0multOf]) (by norm_num) hcount hne hr hfh (fun _ hsub =>
    C54_tetrahedra he (by norm_num) (fun r hr' => ht r (hsub.subset hr')) (fun r hr' => hr r (hsub.subset hr')) fun _ _ => hfh _) hT hR0 hH0 hlt

/-- Concrete case of the hypotheses: the unit right triangle, no fixed points; every hypothesis of the theorems above holds, and so does their
conclusion. -/
example : ∃ (E : Env 2 (List ℝ) (List ℕ)) (s s' : State 2) (q : List (Fin 2 → ℝ)), step E s = .running s' ∧ (E.dt s.p).2 = [[0, 1, 2]] ∧
    s'.p = q.map (pulled E.fd E.subs E.deps E.h0) ∧ ∀ o, spread (E.dt s.p).1 o < spread q o := by
  have hs : Simplices 3 [[0, 1, 2]] := by intro r hr; simp at hr; subst hr; simp
  have hi : InRange [![0, 0], ![1, 0], (![0, 1] : Fin 2 → ℝ)] [[0, 1, 2]] := by intro r hr; simp at hr; subst hr; simp
  let T : Tools 2 (List ℝ) (List ℕ) :=
    ⟨fun q => [q 0, q 1], id, fun _ => 0, fun _ => 1, id, 0, fun _ _ b => b, fun p t => .ok (p, t), fun p t => .ok (p, t)⟩
  let E : Env 2 (List ℝ) (List ℕ) := ⟨T, fun p => (p, [[0, 1, 2]]), fun _ _ _ => .error "", fun _ => -1, [], fun _ => 1, 1, 3 / 10,
    1 / 10, 1 / 1000, 1, [], 0, 1, 5, ⟨true, true, true⟩⟩
  let s : State 2 := ⟨0, [![0, 0], ![1, 0], ![0, 1]], 0⟩
  have hn : ([![0, 0], ![1, 0], ![0, 1]] : List (Fin 2 → ℝ)).Nodup := by
    have h1 : (![0, 0] : Fin 2 → ℝ) ≠ ![1, 0] := fun h => by have := congrFun h 0; norm_num at this
    have h2 : (![0, 0] : Fin 2 → ℝ) ≠ ![0, 1] := fun h => by have := congrFun h 1; norm_num at this
    have h3 : (![1, 0] : Fin 2 → ℝ) ≠ ![0, 1] := fun h => by have := congrFun h 0; norm_num at this
    simp only [List.nodup_cons, List.mem_cons, List.not_mem_nil, or_false, not_or]
    exact ⟨⟨h1, h2⟩, h3, not_false, List.nodup_nil⟩
  have hT : Tame E s 4 1 9 := by
    refine ⟨?_, fun _ _ => le_rfl, ?_⟩
    · intro e he
      have hb : ∀ i, ∀ k, |pos s.p i k| ≤ 1 := by
        intro i k
        match i with
        | 0 => fin_cases k <;> simp [s, pos]
        | 1 => fin_cases k <;> simp [s, pos]
        | 2 => fin_cases k <;> simp [s, pos]
        | n + 3 => simp [s, pos]
      have hb' : ∀ i k, -1 ≤ pos s.p i k ∧ pos s.p i k ≤ 1 := fun i k => abs_le.1 (hb i k)
      show len (1 : ℝ) (pos s.p e.1) (pos s.p e.2) ≤ 4 * 1
      unfold len
      split
      · norm_num
      · rw [Real.sqrt_le_left (by norm_num), Fin.sum_univ_two]
        obtain ⟨a1, a2⟩ := hb' e.1 0
        obtain ⟨b1, b2⟩ := hb' e.1 1
        obtain ⟨c1, c2⟩ := hb' e.2 0
        obtain ⟨d1, d2⟩ := hb' e.2 1
        nlinarith
    · intro i _
      refine (Finset.card_filter_le _ _).trans ?_
      refine (Finset.card_filter_le _ _).trans ?_
      simp [E, s]
  obtain ⟨s', hstep⟩ := C134_runs2 (E := E) (s := s) rfl one_pos (by norm_num [E]) (by norm_num [E, s]) (by simp [E, s]) hs hi (fun _ => one_pos)
    hT (by norm_num) (by norm_num) (by norm_num [E])
  have hk : KeepsACell E s := ⟨[0, 1, 2], by simp [E], [![0, 0], ![1, 0], ![0, 1]], by
    simp [E, s, Np.take, item, bind, Except.bind, pure, Except.pure, List.mapM_cons], by norm_num [E]⟩
  obtain ⟨q, -, hq, hsp⟩ := C134_pass two_ne_zero (C54_pass2 rfl one_pos hstep hs hi fun _ => one_pos) (by norm_num) one_pos
    (by norm_num [E]) hs hi hn hk (fun _ => one_pos) rfl
  exact ⟨E, s, s', q, hstep, rfl, hq, hsp⟩

end

end SM.MeshLoop
