import Verif.Model.Sliver
import Verif.Props.Dihedral
import Verif.Props.FixMesh
import Verif.Props.MeshLoop
import Mathlib.Data.Fintype.Perm
import Mathlib.Tactic.FinCases

/-!
# C61 and C53 for `sliver_removal`
-/

namespace SM.Sliver

open Np FixMesh MeshLoop Simplex

noncomputable section

/-! ## Specification -/

/-- All dihedral angles of the tetrahedron `q` are between `lo` and `hi`: whatever the order in which its vertices are
listed, the angle at the edge of the first two. -/
def Within (lo hi : ℝ) (q : Fin 4 → Fin 3 → ℝ) : Prop :=
  ∀ σ : Equiv.Perm (Fin 4), lo ≤ dihedral (q (σ 0)) (q (σ 1)) (q (σ 2)) (q (σ 3)) ∧
    dihedral (q (σ 0)) (q (σ 1)) (q (σ 2)) (q (σ 3)) ≤ hi

/-- The tetrahedron with vertex numbers `row` in the vertex array `p`. -/
def IsCell (p : List (Fin 3 → ℝ)) (row : List ℕ) (q : Fin 4 → Fin 3 → ℝ) : Prop :=
  row.map (fun i => p[i]?) = [some (q 0), some (q 1), some (q 2), some (q 3)]

/-! ## Angles -/

theorem rej_rev (u v : EuclideanSpace ℝ (Fin 3)) : rej (-u) (v - u) = rej u v := by
  by_cases hu : u = 0
  · subst hu; simp [rej]
  · have h : inner ℝ u u ≠ 0 := by simpa using hu
    simp only [rej, inner_neg_left, inner_neg_right, neg_neg, inner_sub_right]
    have e : (-inner ℝ u v - -inner ℝ u u) / inner ℝ u u = 1 - inner ℝ u v / inner ℝ u u := by
      field_simp; ring
    rw [e, sub_smul, one_smul, smul_neg]
    abel

theorem dihedral_rev (p0 p1 p2 p3 : Fin 3 → ℝ) : dihedral p1 p0 p2 p3 = dihedral p0 p1 p2 p3 := by
  unfold dihedral
  have e : ∀ x : Fin 3 → ℝ, rej (e3 p0 - e3 p1) (e3 x - e3 p1) = rej (e3 p1 - e3 p0) (e3 x - e3 p0) := by
    intro x
    rw [← rej_rev (e3 p1 - e3 p0) (e3 x - e3 p0)]
    congr 1 <;> abel
  rw [e, e]

theorem dihedral_comm (p0 p1 p2 p3 : Fin 3 → ℝ) : dihedral p0 p1 p3 p2 = dihedral p0 p1 p2 p3 := by
  unfold dihedral
  exact InnerProductGeometry.angle_comm _ _

/-- The six angles of the edge table are all angles. -/
theorem within_iff (lo hi : ℝ) (q : Fin 4 → Fin 3 → ℝ) : Within lo hi q ↔
    ∀ x ∈ [dihedral (q 2) (q 3) (q 0) (q 1), dihedral (q 1) (q 3) (q 0) (q 2),
      dihedral (q 1) (q 2) (q 0) (q 3), dihedral (q 0) (q 3) (q 1) (q 2),
      dihedral (q 0) (q 2) (q 1) (q 3), dihedral (q 0) (q 1) (q 2) (q 3)], lo ≤ x ∧ x ≤ hi := by
  constructor
  · intro h x hx
    have key : ∀ a b c e : Fin 4, Function.Injective ![a, b, c, e] →
        lo ≤ dihedral (q a) (q b) (q c) (q e) ∧ dihedral (q a) (q b) (q c) (q e) ≤ hi := by
      intro a b c e hinj
      exact h (Equiv.ofBijective _ (Finite.injective_iff_bijective.1 hinj))
    simp only [List.mem_cons, List.not_mem_nil, or_false] at hx
    rcases hx with rfl | rfl | rfl | rfl | rfl | rfl <;> exact key _ _ _ _ (by decide)
  · intro h σ
    simp only [List.mem_cons, List.not_mem_nil, or_false, forall_eq_or_imp, forall_eq] at h
    obtain ⟨h1, h2, h3, h4, h5, h6⟩ := h
    have hinj := σ.injective
    have n01 : σ 0 ≠ σ 1 := fun e => by simpa using hinj e
    have n02 : σ 0 ≠ σ 2 := fun e => by simpa using hinj e
    have n03 : σ 0 ≠ σ 3 := fun e => by simpa using hinj e
    have n12 : σ 1 ≠ σ 2 := fun e => by simpa using hinj e
    have n13 : σ 1 ≠ σ 3 := fun e => by simpa using hinj e
    have n23 : σ 2 ≠ σ 3 := fun e => by simpa using hinj e
    have key : ∀ a b c e : Fin 4, a ≠ b → a ≠ c → a ≠ e → b ≠ c → b ≠ e → c ≠ e →
        lo ≤ dihedral (q a) (q b) (q c) (q e) ∧ dihedral (q a) (q b) (q c) (q e) ≤ hi := by
      have sw : ∀ a b c e : Fin 4, lo ≤ dihedral (q a) (q b) (q c) (q e) ∧ dihedral (q a) (q b) (q c) (q e) ≤ hi →
          (lo ≤ dihedral (q b) (q a) (q c) (q e) ∧ dihedral (q b) (q a) (q c) (q e) ≤ hi) ∧
          (lo ≤ dihedral (q a) (q b) (q e) (q c) ∧ dihedral (q a) (q b) (q e) (q c) ≤ hi) ∧
          (lo ≤ dihedral (q b) (q a) (q e) (q c) ∧ dihedral (q b) (q a) (q e) (q c) ≤ hi) := by
        intro a b c e hh
        rw [dihedral_comm (q a) (q b) (q c) (q e), dihedral_rev (q a) (q b) (q c) (q e),
          dihedral_comm (q b) (q a) (q c) (q e), dihedral_rev (q a) (q b) (q c) (q e)]
        exact ⟨hh, hh, hh⟩
      intro a b c e
      have s1 := sw _ _ _ _ h1; have s2 := sw _ _ _ _ h2; have s3 := sw _ _ _ _ h3
      have s4 := sw _ _ _ _ h4; have s5 := sw _ _ _ _ h5; have s6 := sw _ _ _ _ h6
      fin_cases a <;> fin_cases b <;> fin_cases c <;> fin_cases e <;> intro n1 n2 n3 n4 n5 n6 <;>
        first
        | exact absurd rfl n1 | exact absurd rfl n2 | exact absurd rfl n3 | exact absurd rfl n4 | exact absurd rfl n5 | exact absurd rfl n6
        | exact h1 | exact s1.1 | exact s1.2.1 | exact s1.2.2
        | exact h2 | exact s2.1 | exact s2.2.1 | exact s2.2.2
        | exact h3 | exact s3.1 | exact s3.2.1 | exact s3.2.2
        | exact h4 | exact s4.1 | exact s4.2.1 | exact s4.2.2
        | exact h5 | exact s5.1 | exact s5.2.1 | exact s5.2.2
        | exact h6 | exact s6.1 | exact s6.2.1 | exact s6.2.2
    exact key _ _ _ _ n01 n02 n03 n12 n13 n23

theorem within_perm {lo hi : ℝ} {q q' : Fin 4 → Fin 3 → ℝ} (σ : Equiv.Perm (Fin 4)) (h : ∀ i, q' i = q (σ i)) (hw : Within lo hi q) :
    Within lo hi q' := by
  intro τ
  have := hw (τ.trans σ)
  simpa [h] using this

/-- No three vertices of the tetrahedron are on a line. (Its four vertices may be in a plane.) -/
def Solid (q : Fin 4 → Fin 3 → ℝ) : Prop := ∀ i j k : Fin 4, i ≠ j → i ≠ k → j ≠ k → ¬ Collinear ℝ {q i, q j, q k}

theorem solid_of_ind {q : Fin 4 → Fin 3 → ℝ} (h : AffineIndependent ℝ q) : Solid q := by
  intro i j k hij hik hjk
  have hinj : Function.Injective ![i, j, k] := by
    intro a b hab
    fin_cases a <;> fin_cases b <;> simp at hab ⊢ <;> first | exact absurd hab ‹_› | exact absurd hab.symm ‹_›
  have := h.comp_embedding ⟨![i, j, k], hinj⟩
  rw [← affineIndependent_iff_not_collinear_set]
  have e : (q ∘ (⟨![i, j, k], hinj⟩ : Fin 3 ↪ Fin 4)) = ![q i, q j, q k] := by
    funext a
    fin_cases a <;> rfl
  rw [← e]
  exact this

theorem cross_ne {p0 p1 p2 : Fin 3 → ℝ} (h : ¬ Collinear ℝ {p0, p1, p2}) :
    p1 ≠ p0 ∧ p2 ≠ p0 ∧ cross (fun j => p1 j - p0 j) (fun j => p2 j - p0 j) ≠ 0 := by
  have h1 : p1 ≠ p0 := by
    rintro rfl
    exact h (by simpa using collinear_pair ℝ p1 p2)
  have h2 : p2 ≠ p0 := by
    rintro rfl
    apply h
    have e : ({p2, p1, p2} : Set (Fin 3 → ℝ)) = {p1, p2} := by ext x; simp
    rw [e]; exact collinear_pair ℝ p1 p2
  refine ⟨h1, h2, fun h0 => h ?_⟩
  rw [collinear_iff_of_mem (p₀ := p0) (by simp)]
  refine ⟨fun j => p1 j - p0 j, ?_⟩
  set u : Fin 3 → ℝ := fun j => p1 j - p0 j with hu
  set v : Fin 3 → ℝ := fun j => p2 j - p0 j with hv
  have hd : dot u u ≠ 0 := by
    have hpos : 0 < l2 u := by
      apply l2_pos; intro hz; apply h1; ext j; have := congrFun hz j; simp [hu] at this; linarith
    rw [← l2_sq]; positivity
  have e0 := congrFun h0 0; have e1 := congrFun h0 1; have e2 := congrFun h0 2
  simp [cross] at e0 e1 e2
  intro x hx
  rcases hx with rfl | rfl | rfl
  · exact ⟨0, by simp⟩
  · exact ⟨1, by ext j; simp [hu]⟩
  · refine ⟨dot u v / dot u u, ?_⟩
    have key : ∀ j, dot u u * v j = dot u v * u j := by
      intro j
      fin_cases j <;> simp [dot]
      · linear_combination u 1 * (-e2) + u 2 * e1
      · linear_combination u 0 * e2 - u 2 * e0
      · linear_combination (-u 0) * e1 + u 1 * e0
    ext j
    have hx : x j = v j + p0 j := by simp [hv]
    rw [hx, vadd_eq_add, Pi.add_apply, Pi.smul_apply, smul_eq_mul, div_mul_eq_mul_div, ← key j, mul_div_cancel_left₀ _ hd]

theorem angleOrNan_solid {p0 p1 p2 p3 : Fin 3 → ℝ} (ha : ¬ Collinear ℝ {p0, p1, p2}) (hb : ¬ Collinear ℝ {p0, p1, p3}) :
    angleOrNan p0 p1 p2 p3 = some (dihedral p0 p1 p2 p3) := by
  obtain ⟨h1, h2, hc2⟩ := cross_ne ha
  obtain ⟨-, h3, hc3⟩ := cross_ne hb
  have hn : ∀ {p : Fin 3 → ℝ}, p ≠ p0 → 0 < l2 fun j => p j - p0 j := by
    intro p hp; apply l2_pos; intro h0; apply hp; ext j; have := congrFun h0 j; simp at this; linarith
  have hc : ∀ u v : Fin 3 → ℝ, 0 < l2 u → 0 < l2 v → cross u v ≠ 0 →
      0 < l2 (cross (fun j => u j / l2 u) (fun j => v j / l2 v)) := by
    intro u v hu hv hne
    apply l2_pos
    intro h0
    apply hne
    have e : ∀ i, cross (fun j => u j / l2 u) (fun j => v j / l2 v) i = cross u v i / (l2 u * l2 v) := by
      intro i; fin_cases i <;> simp [cross] <;> field_simp
    ext i
    have := congrFun h0 i
    rw [e i] at this
    simp only [Pi.zero_apply, div_eq_zero_iff] at this ⊢
    rcases this with h | h
    · exact h
    · exact absurd h (by positivity)
  rw [angleOrNan]
  simp only
  rw [if_neg (by
    rintro (e | e | e | e | e)
    · exact (hn h1).ne' e
    · exact (hn h2).ne' e
    · exact (hn h3).ne' e
    · exact (hc _ _ (hn h1) (hn h2) hc2).ne' e
    · exact (hc _ _ (hn h1) (hn h3) hc3).ne' e), cos_formula h1 h2 h3]
  rfl

theorem cellAnglesN_solid {q : Fin 4 → Fin 3 → ℝ} (h : Solid q) :
    cellAnglesN q = [dihedral (q 2) (q 3) (q 0) (q 1), dihedral (q 1) (q 3) (q 0) (q 2),
      dihedral (q 1) (q 2) (q 0) (q 3), dihedral (q 0) (q 3) (q 1) (q 2),
      dihedral (q 0) (q 2) (q 1) (q 3), dihedral (q 0) (q 1) (q 2) (q 3)].map some := by
  have r : ∀ a b c d : Fin 4, a ≠ b → a ≠ c → b ≠ c → a ≠ d → b ≠ d →
      angleOrNan (q a) (q b) (q c) (q d) = some (dihedral (q a) (q b) (q c) (q d)) :=
    fun a b c d h1 h2 h3 h4 h5 => angleOrNan_solid (h a b c h1 h2 h3) (h a b d h1 h4 h5)
  simp only [List.map_cons, List.map_nil]
  rw [← r 2 3 0 1 (by decide) (by decide) (by decide) (by decide) (by decide), ← r 1 3 0 2 (by decide) (by decide) (by decide) (by decide) (by decide),
    ← r 1 2 0 3 (by decide) (by decide) (by decide) (by decide) (by decide), ← r 0 3 1 2 (by decide) (by decide) (by decide) (by decide) (by decide),
    ← r 0 2 1 3 (by decide) (by decide) (by decide) (by decide) (by decide), ← r 0 1 2 3 (by decide) (by decide) (by decide) (by decide) (by decide)]
  rfl

theorem outside_iff {lo hi : ℝ} {q : Fin 4 → Fin 3 → ℝ} (h : Solid q) :
    (∃ x ∈ cellAnglesN q, outside lo hi x = true) ↔ ¬ Within lo hi q := by
  rw [within_iff, cellAnglesN_solid h]
  simp only [List.mem_map, exists_exists_and_eq_and, outside, decide_eq_true_eq]
  push Not
  constructor
  · rintro ⟨x, hx, hb⟩
    refine ⟨x, hx, fun hl => ?_⟩
    rcases hb with hb | hb
    · exact absurd hl (not_le.2 hb)
    · exact hb
  · rintro ⟨x, hx, hb⟩
    refine ⟨x, hx, ?_⟩
    by_cases hl : lo ≤ x
    · exact Or.inr (hb hl)
    · exact Or.inl (not_le.1 hl)

/-! ## Detection -/

theorem flatten6 {α : Type} (rows : List (List α)) (h : ∀ r ∈ rows, r.length = 6) (i : ℕ) :
    rows.flatten[i]? = (rows[i / 6]?).bind fun r => r[i % 6]? := by
  induction rows generalizing i with
  | nil => simp
  | cons r rows ih =>
    have h0 : r.length = 6 := h r List.mem_cons_self
    rw [List.flatten_cons, List.getElem?_append]
    by_cases hi : i < 6
    · rw [if_pos (by omega), Nat.div_eq_of_lt hi, Nat.mod_eq_of_lt hi]; simp
    · rw [if_neg (by omega), ih (fun r hr => h r (List.mem_cons_of_mem _ hr)), h0]
      have e1 : i / 6 = (i - 6) / 6 + 1 := by omega
      have e2 : i % 6 = (i - 6) % 6 := by omega
      rw [e1, e2]; simp

theorem corners_ok {p : List (Fin 3 → ℝ)} {row : List ℕ} {q : Fin 4 → Fin 3 → ℝ} (h : IsCell p row q) : corners p row = .ok q := by
  unfold IsCell at h
  have hl : row.length = 4 := by simpa using congrArg List.length h
  match row, hl, h with
  | [a, b, c, e], _, h =>
    simp only [List.map_cons, List.map_nil, List.cons.injEq, and_true] at h
    obtain ⟨ha, hb, hc, he⟩ := h
    simp only [corners, item, List.getElem?_cons_zero, List.getElem?_cons_succ, bind, Except.bind, ha, hb, hc, he, pure, Except.pure]
    congr 1
    funext i; fin_cases i <;> rfl

theorem cell_exists {p : List (Fin 3 → ℝ)} {t : List (List ℕ)} (hr : InRange p t) (h4 : ∀ r ∈ t, r.length = 4) {row : List ℕ} (hrow : row ∈ t) :
    ∃ q, IsCell p row q := by
  have hi := hr row hrow
  match row, h4 row hrow, hi with
  | [a, b, c, e], _, hi =>
    refine ⟨![p[a]'(hi a (by simp)), p[b]'(hi b (by simp)), p[c]'(hi c (by simp)), p[e]'(hi e (by simp))], ?_⟩
    simp [IsCell, hi a, hi b, hi c, hi e]

/-- **C61 (detection).** The cells selected for treatment are listed once, in ascending order, and are exactly those of
which the code sees an angle out of bounds; for a cell without three vertices on a line (flat cells included) that means
one of its dihedral angles is out of bounds. -/
theorem C61_detect (lo hi : ℝ) {p : List (Fin 3 → ℝ)} {t : List (List ℕ)} (hr : InRange p t) (h4 : ∀ r ∈ t, r.length = 4) :
    ∃ bad, badCells lo hi p t = .ok bad ∧ bad.Pairwise (· < ·) ∧ (∀ k ∈ bad, k < t.length) ∧
      ∀ (k : ℕ) row q, t[k]? = some row → IsCell p row q → Solid q → (k ∈ bad ↔ ¬ Within lo hi q) := by
  have hex : ∀ r ∈ t, ∃ l, rowAngles p r = .ok l := by
    intro r hrow
    obtain ⟨q, hq⟩ := cell_exists hr h4 hrow
    exact ⟨_, by simp only [rowAngles, corners_ok hq, bind, Except.bind, pure, Except.pure]; rfl⟩
  obtain ⟨parts, hp⟩ := mapM_exists hex
  have hf := mapM_forall₂.1 hp
  have hlen : ∀ r ∈ parts, r.length = 6 := by
    intro r hrm
    obtain ⟨s, -, hs⟩ := forall₂_right hf r hrm
    simp only [rowAngles, bind, Except.bind, pure, Except.pure] at hs
    split at hs
    · simp at hs
    · rw [← Except.ok.inj hs]; simp [cellAnglesN]
  have hrun : badCells lo hi p t = .ok (uniqBy id (((parts.flatten.zipIdx.filter fun ai => outside lo hi ai.1).map Prod.snd).map fun i => i / 6)) := by
    simp only [badCells, allAngles, hp, bind, Except.bind, pure, Except.pure]
  have hmem : ∀ k, k ∈ uniqBy id (((parts.flatten.zipIdx.filter fun ai => outside lo hi ai.1).map Prod.snd).map fun i => i / 6) ↔
      ∃ r, parts[k]? = some r ∧ ∃ x ∈ r, outside lo hi x = true := by
    intro k
    rw [mem_uniqBy Function.injective_id]
    simp only [List.mem_map, List.mem_filter, Prod.exists, List.mem_zipIdx_iff_getElem?]
    constructor
    · rintro ⟨i, ⟨x, j, ⟨hx, ho⟩, rfl⟩, rfl⟩
      rw [flatten6 parts hlen] at hx
      simp only [Option.bind_eq_some_iff] at hx
      obtain ⟨r, h1, h2⟩ := hx
      exact ⟨r, h1, x, List.mem_of_getElem? h2, ho⟩
    · rintro ⟨r, h1, x, hx, ho⟩
      obtain ⟨j, hj⟩ := List.mem_iff_getElem?.1 hx
      have hj6 : j < 6 := by rw [← hlen r (List.mem_of_getElem? h1)]; exact (List.getElem?_eq_some_iff.1 hj).1
      refine ⟨k * 6 + j, ⟨x, k * 6 + j, ⟨?_, ho⟩, rfl⟩, by omega⟩
      rw [flatten6 parts hlen, show (k * 6 + j) / 6 = k by omega, show (k * 6 + j) % 6 = j by omega, h1]
      exact hj
  refine ⟨_, hrun, ?_, ?_, ?_⟩
  · have := uniqBy_sorted (id : ℕ → ℕ) (((parts.flatten.zipIdx.filter fun ai => outside lo hi ai.1).map Prod.snd).map fun i => i / 6)
    simpa using this
  · intro k hk
    obtain ⟨r, h1, -⟩ := (hmem k).1 hk
    rw [hf.length_eq]; exact (List.getElem?_eq_some_iff.1 h1).1
  · intro k row q hk hq hind
    rw [hmem, ← outside_iff hind]
    obtain ⟨hlt, hk'⟩ := List.getElem?_eq_some_iff.1 hk
    have hl2 : k < parts.length := by rw [← hf.length_eq]; exact hlt
    have hg := List.Forall₂.get hf hlt hl2
    simp only [List.get_eq_getElem, hk', rowAngles, corners_ok hq, bind, Except.bind, pure, Except.pure, Except.ok.injEq] at hg
    rw [List.getElem?_eq_getElem hl2, ← hg]
    simp

/-! ## The loop -/

variable {κ ρ : Type} [LinearOrder κ] [LinearOrder ρ]

theorem perm_reorder {α β : Type} (f : α → β) (l : List β) (r : List α) (hp : (r.map f).Perm l) : ∃ s : List α, s.Perm r ∧ s.map f = l := by
  induction l generalizing r with
  | nil =>
    have : r = [] := by simpa using hp
    exact ⟨[], by simp [this], rfl⟩
  | cons k l ih =>
    have hk : k ∈ r.map f := hp.mem_iff.2 (by simp)
    obtain ⟨j, hj, rfl⟩ := List.mem_map.1 hk
    obtain ⟨a, b, rfl⟩ := List.append_of_mem hj
    have h2 : ((a ++ b).map f).Perm l := by
      have : ((a ++ j :: b).map f).Perm (f j :: (a ++ b).map f) := by
        rw [List.map_append, List.map_cons, List.map_append]
        exact List.perm_middle
      exact List.Perm.cons_inv (this.symm.trans hp)
    obtain ⟨s, hs, he⟩ := ih _ h2
    exact ⟨j :: s, (hs.cons j).trans List.perm_middle.symm, by simp [he]⟩

/-- Two cells with the same vertices in another order. -/
theorem cell_perm {p p' : List (Fin 3 → ℝ)} {row row' : List ℕ} {q : Fin 4 → Fin 3 → ℝ} (hq : IsCell p row q)
    (h : (row'.map fun i => p'[i]?).Perm (row.map fun i => p[i]?)) :
    ∃ (q' : Fin 4 → Fin 3 → ℝ) (σ : Equiv.Perm (Fin 4)), IsCell p' row' q' ∧ ∀ i, q' i = q (σ i) := by
  rw [hq] at h
  have e : ([0, 1, 2, 3] : List (Fin 4)).map (fun i => some (q i)) = [some (q 0), some (q 1), some (q 2), some (q 3)] := rfl
  rw [← e] at h
  obtain ⟨s, hs, hse⟩ := perm_reorder _ _ _ h.symm
  have hl : s.length = 4 := by simpa using hs.length_eq
  have hnd : s.Nodup := hs.nodup_iff.2 (by decide)
  match s, hl, hnd, hse with
  | [a, b, c, d], _, hnd, hse =>
    have hinj : Function.Injective ![a, b, c, d] := by
      simp only [List.nodup_cons, List.mem_cons, List.not_mem_nil, or_false, not_or, List.nodup_nil, and_true] at hnd
      intro i j hij
      obtain ⟨⟨h1, h2, h3⟩, ⟨h4, h5⟩, h6, -⟩ := hnd
      fin_cases i <;> fin_cases j <;> simp at hij ⊢ <;> first | exact absurd hij ‹_› | exact absurd hij.symm ‹_›
    refine ⟨fun i => q (![a, b, c, d] i), Equiv.ofBijective _ (Finite.injective_iff_bijective.1 hinj), ?_, fun i => rfl⟩
    simpa [IsCell] using hse.symm

/-- What is assumed of the triangulation: the cells refer to its vertices and have four of them, and no two
vertices are so close that `fix_mesh` merges them. -/
def DtOk (E : Env κ ρ) : Prop := ∀ k s, (E.dt k s).1 ≠ [] ∧ InRange (E.dt k s).1 (E.dt k s).2 ∧ (∀ r ∈ (E.dt k s).2, r.length = 4) ∧
  ∀ x ∈ (E.dt k s).1, ∀ y ∈ (E.dt k s).1,
    keyOf E.tools.enc E.tools.ptol (E.dt k s).1 x = keyOf E.tools.enc E.tools.ptol (E.dt k s).1 y → x = y

theorem run_done {E : Env κ ρ} {n : ℕ} {s : State} {p : List (Fin 3 → ℝ)} {t : List (List ℕ)} {b : Bool}
    (h : run E n s = .done p t b) : ∃ m s', m < n ∧ run E m s = .running s' ∧ step E s' = .done p t b := by
  induction n generalizing s with
  | zero => simp [run] at h
  | succ n ih =>
    rw [run] at h
    cases hs : step E s with
    | running s1 =>
      simp only [hs] at h
      obtain ⟨m, s', hm, hr, hd⟩ := ih h
      exact ⟨m + 1, s', by omega, by rw [run, hs]; exact hr, hd⟩
    | done q u j =>
      simp only [hs, Outcome.done.injEq] at h
      obtain ⟨rfl, rfl, rfl⟩ := h
      exact ⟨0, s, by omega, rfl, hs⟩
    | raised e => simp [hs] at h

theorem step_success {E : Env κ ρ} {s : State} {p : List (Fin 3 → ℝ)} {t : List (List ℕ)} (h : step E s = .done p t true) :
    ∃ t1, Project.removeOutside E.fd E.geps (E.dt s.count s.p).1 (E.dt s.count s.p).2 = .ok t1 ∧
      badCells E.minDh E.maxDh (E.dt s.count s.p).1 t1 = .ok [] ∧ fixed E.tools (E.dt s.count s.p).1 t1 = .ok (p, t) := by
  unfold step topology at h
  simp only [bind, Except.bind, pure, Except.pure] at h
  cases h1 : Project.removeOutside E.fd E.geps (E.dt s.count s.p).1 (E.dt s.count s.p).2 with
  | error e => simp [h1] at h
  | ok t1 =>
    simp only [h1] at h
    cases h2 : badCells E.minDh E.maxDh (E.dt s.count s.p).1 t1 with
    | error e => simp [h2] at h
    | ok bad =>
      simp only [h2] at h
      split at h
      · split at h <;> simp at h
      · split at h
        · rename_i hb
          subst hb
          cases h3 : fixed E.tools (E.dt s.count s.p).1 t1 with
          | error e => simp [h3] at h
          | ok r =>
            obtain ⟨p', t'⟩ := r
            simp only [h3, Outcome.done.injEq, and_true] at h
            obtain ⟨rfl, rfl⟩ := h
            exact ⟨t1, rfl, h2, h3⟩
        · split at h <;> simp at h

theorem fixed_ok {T : Tools 3 κ ρ} (hrk : Function.Injective T.rk) {p : List (Fin 3 → ℝ)} {t : List (List ℕ)} (hp : p ≠ [])
    (ht : InRange p t) (hk : ∀ x ∈ p, ∀ y ∈ p, keyOf T.enc T.ptol p x = keyOf T.enc T.ptol p y → x = y) :
    ∃ p' t', fixed T p t = .ok (p', t') ∧ (∀ r' ∈ t', ∃ r ∈ t, (r'.map fun i => p'[i]?).Perm (r.map fun i => p[i]?)) ∧
      (∀ r ∈ t, ∃ r' ∈ t', (r'.map fun i => p'[i]?).Perm (r.map fun i => p[i]?)) := by
  cases p with
  | nil => exact absurd rfl hp
  | cons p0 ps =>
    obtain ⟨p', t', jx, hrun, h1, h2⟩ := C32_exact (fun q => T.enc (snapPt (snapLen T.ptol p0 ps) q)) hrk T.vol hp ht hk true true
    exact ⟨p', t', by simp only [fixed, fixMeshK, hrun, bind, Except.bind, pure, Except.pure], h1, h2⟩

/-- **C61.** If `sliver_removal` reports that no slivers are left, then every cell of the returned mesh without three
vertices on a line has all its dihedral angles within the requested bounds; whatever the triangulations and
perturbations were. (A mesh returned because the iterations were used up is the other case.) -/
theorem C61_success {E : Env κ ρ} (hrk : Function.Injective E.tools.rk) (hdt : DtOk E) {n : ℕ} {p0 p : List (Fin 3 → ℝ)}
    {t : List (List ℕ)} (h : run E n (start p0) = .done p t true) :
    ∀ row ∈ t, ∃ q, IsCell p row q ∧ (Solid q → Within E.minDh E.maxDh q) := by
  obtain ⟨m, s, -, -, hd⟩ := run_done h
  obtain ⟨t1, h1, h2, h3⟩ := step_success hd
  obtain ⟨hne, hin, h4, hk⟩ := hdt s.count s.p
  have hsub : ∀ r ∈ t1, r ∈ (E.dt s.count s.p).2 := fun r hr => ((removeOutside_spec h1 r).1 hr).1
  have hin1 : InRange (E.dt s.count s.p).1 t1 := fun r hr => hin r (hsub r hr)
  have h41 : ∀ r ∈ t1, r.length = 4 := fun r hr => h4 r (hsub r hr)
  obtain ⟨p', t', hf, hfwd, -⟩ := fixed_ok hrk hne hin1 hk
  rw [h3] at hf
  simp only [Except.ok.injEq, Prod.mk.injEq] at hf
  obtain ⟨rfl, rfl⟩ := hf
  obtain ⟨bad, hb, -, -, hdet⟩ := C61_detect E.minDh E.maxDh hin1 h41
  rw [h2] at hb
  cases hb
  intro row hrow
  obtain ⟨r, hr, hperm⟩ := hfwd row hrow
  obtain ⟨q, hq⟩ := cell_exists hin1 h41 hr
  obtain ⟨q', σ, hq', hσ⟩ := cell_perm hq hperm
  refine ⟨q', hq', fun hind => ?_⟩
  have hind0 : Solid q := by
    intro i j k hij hik hjk
    have := hind (σ.symm i) (σ.symm j) (σ.symm k) (by simpa using hij) (by simpa using hik) (by simpa using hjk)
    simpa [hσ] using this
  obtain ⟨k, hk'⟩ := List.mem_iff_getElem?.1 hr
  have := hdet k r q hk' hq hind0
  have hw : Within E.minDh E.maxDh q := by
    by_contra hc
    simpa using this.2 hc
  exact within_perm σ hσ hw

/-! ## Movement -/

theorem assign_length (l : List (ℕ × (Fin 3 → ℝ))) (p : List (Fin 3 → ℝ)) : (assign l p).length = p.length := by
  induction l generalizing p with
  | nil => rfl
  | cons x l ih => obtain ⟨i, x⟩ := x; rw [assign, ih]; simp

theorem assign_other (l : List (ℕ × (Fin 3 → ℝ))) (p : List (Fin 3 → ℝ)) (i : ℕ) (h : ∀ x ∈ l, x.1 ≠ i) : (assign l p)[i]? = p[i]? := by
  induction l generalizing p with
  | nil => rfl
  | cons x l ih =>
    obtain ⟨j, x⟩ := x
    rw [assign, ih _ fun y hy => h y (List.mem_cons_of_mem _ hy)]
    exact List.getElem?_set_ne (h _ List.mem_cons_self)

theorem assign_mem (l : List (ℕ × (Fin 3 → ℝ))) (p : List (Fin 3 → ℝ)) (i : ℕ) (hi : i < p.length) (h : ∃ x ∈ l, x.1 = i) :
    ∃ x ∈ l, x.1 = i ∧ (assign l p)[i]? = some x.2 := by
  induction l generalizing p with
  | nil => simp at h
  | cons y l ih =>
    obtain ⟨j, y⟩ := y
    by_cases hl : ∃ x ∈ l, x.1 = i
    · obtain ⟨x, hx, hxi, he⟩ := ih (p.set j y) (by simpa using hi) hl
      exact ⟨x, List.mem_cons_of_mem _ hx, hxi, he⟩
    · push Not at hl
      obtain ⟨x, hx, hxi⟩ := h
      rcases List.mem_cons.1 hx with rfl | hx
      · simp only at hxi
        subst hxi
        refine ⟨_, List.mem_cons_self, rfl, ?_⟩
        rw [assign, assign_other _ _ _ hl, List.getElem?_set_self hi]
      · exact absurd hxi (hl x hx)

/-- **C61 (treatment).** With the default `preserve = False`, one treatment moves exactly the first vertices of bad cells:
every other vertex keeps its position, and the first vertex of a bad cell goes to its position plus `step * h0` times the
perturbation of one of the bad cells that have it as first vertex. -/
theorem C61_moves {E : Env κ ρ} (hpres : E.preserve = false) {st : ℝ} {p p' : List (Fin 3 → ℝ)} {t : List (List ℕ)} {bad : List ℕ}
    (h : perturbAll E st p t bad = .ok p') :
    p'.length = p.length ∧
    (∀ i, (∀ k ∈ bad, ∀ row, t[k]? = some row → row[0]? ≠ some i) → p'[i]? = p[i]?) ∧
    ∀ i x, p[i]? = some x → (∃ k ∈ bad, ∃ row, t[k]? = some row ∧ row[0]? = some i) →
      ∃ k ∈ bad, ∃ row q, t[k]? = some row ∧ row[0]? = some i ∧ IsCell p (row.take 4) q ∧
        p'[i]? = some fun j => x j + st * E.h0 * E.perturb q j := by
  simp only [perturbAll, hpres, bind, Except.bind, pure, Except.pure] at h
  split at h
  · simp at h
  rename_i mv hmv
  simp only [Bool.false_eq_true, if_false, Except.ok.injEq] at h
  subst h
  have hf := mapM_forall₂.1 hmv
  have hone : ∀ k v, moveOf E st p t k = .ok v → ∃ row q, t[k]? = some row ∧ row[0]? = some v.1 ∧ IsCell p (row.take 4) q ∧
      v.2 = fun j => q 0 j + st * E.h0 * E.perturb q j := by
    intro k v hv
    simp only [moveOf, bind, Except.bind, pure, Except.pure] at hv
    split at hv
    · simp at hv
    rename_i row hrow
    split at hv
    · simp at hv
    rename_i w hw
    split at hv
    · simp at hv
    rename_i q hq
    simp only [Except.ok.injEq] at hv
    subst hv
    refine ⟨row, q, item_ok.1 hrow, item_ok.1 hw, ?_, rfl⟩
    simp only [corners, bind, Except.bind, pure, Except.pure] at hq
    split at hq
    · simp at hq
    rename_i a0 ha0
    split at hq
    · simp at hq
    rename_i a ha
    split at hq
    · simp at hq
    rename_i b0 hb0
    split at hq
    · simp at hq
    rename_i b hb
    split at hq
    · simp at hq
    rename_i c0 hc0
    split at hq
    · simp at hq
    rename_i c hc
    split at hq
    · simp at hq
    rename_i e0 he0
    split at hq
    · simp at hq
    rename_i e he
    simp only [Except.ok.injEq] at hq
    subst hq
    rw [item_ok] at ha0 ha hb0 hb hc0 hc he0 he
    match row, ha0, hb0, hc0, he0 with
    | x0 :: x1 :: x2 :: x3 :: rest, ha0, hb0, hc0, he0 =>
      simp only [List.getElem?_cons_zero, List.getElem?_cons_succ, Option.some.injEq] at ha0 hb0 hc0 he0
      subst ha0 hb0 hc0 he0
      simp [IsCell, ha, hb, hc, he]
  refine ⟨assign_length _ _, ?_, ?_⟩
  · intro i hi
    apply assign_other
    intro v hv heq
    obtain ⟨k, hk, hkv⟩ := forall₂_right hf v hv
    obtain ⟨row, q, h1, h2, -⟩ := hone k v hkv
    exact hi k hk row h1 (by rw [h2, heq])
  · rintro i x hx ⟨k, hk, row, hrow, hi⟩
    obtain ⟨v, hv, hkv⟩ := forall₂_left hf k hk
    obtain ⟨row', q', h1, h2, -⟩ := hone k v hkv
    rw [hrow] at h1; cases h1
    rw [hi] at h2; cases h2
    obtain ⟨w, hw, hwi, he⟩ := assign_mem mv p v.1 (List.getElem?_eq_some_iff.1 hx).1 ⟨v, hv, rfl⟩
    obtain ⟨k2, hk2, hkw⟩ := forall₂_right hf w hw
    obtain ⟨row2, q2, g1, g2, g3, g4⟩ := hone k2 w hkw
    refine ⟨k2, hk2, row2, q2, g1, by rw [g2, hwi], g3, ?_⟩
    rw [he, g4]
    have hq0 : q2 0 = x := by
      unfold IsCell at g3
      match row2, g2, g3 with
      | y :: ys, g2, g3 =>
        simp only [List.getElem?_cons_zero, Option.some.injEq] at g2
        simp only [List.take_succ_cons, List.map_cons, List.cons.injEq] at g3
        rw [g2, hwi, hx] at g3
        exact (Option.some.inj g3.1).symm
    rw [hq0]

/-! ## C53 -/

theorem step_running {E : Env κ ρ} {s s' : State} (h : step E s = .running s') :
    (s.count : ℝ) ≠ E.maxIter - 1 ∧ s'.count = s.count + 1 := by
  unfold step at h
  cases ht : topology E s with
  | error e => simp [ht] at h
  | ok r =>
    obtain ⟨p, t, bad⟩ := r
    simp only [ht] at h
    split at h
    · split at h <;> simp at h
    · rename_i hne
      refine ⟨hne, ?_⟩
      split at h
      · split at h <;> simp at h
      · split at h
        · simp at h
        · simp only [Outcome.running.injEq] at h
          subst h; rfl

theorem run_running {E : Env κ ρ} {n : ℕ} {s s' : State} (h : run E n s = .running s') :
    s'.count = s.count + n ∧ ∀ j < n, ((s.count + j : ℕ) : ℝ) ≠ E.maxIter - 1 := by
  induction n generalizing s with
  | zero => simp only [run, Outcome.running.injEq] at h; subst h; simp
  | succ n ih =>
    rw [run] at h
    cases hs : step E s with
    | running s1 =>
      simp only [hs] at h
      obtain ⟨h1, h2⟩ := ih h
      obtain ⟨h3, h4⟩ := step_running hs
      refine ⟨by omega, fun j hj => ?_⟩
      rcases j with - | j
      · simpa using h3
      · have := h2 j (by omega)
        rw [h4] at this
        rwa [show s.count + (j + 1) = s.count + 1 + j by omega]
    | done q u j => simp [hs] at h
    | raised e => simp [hs] at h

/-- **C53 (`sliver_removal`).** For every positive integer `max_iter` the loop is over after `max_iter` passes. -/
theorem C53_sliver_removal_partial {E : Env κ ρ} {m : ℕ} (hm : 1 ≤ m) (hE : E.maxIter = m) (p0 : List (Fin 3 → ℝ)) (n : ℕ) (hn : m ≤ n) (s : State) :
    run E n (start p0) ≠ .running s := by
  intro h
  have := (run_running h).2 (m - 1) (by omega)
  apply this
  rw [hE]
  simp [start, Nat.cast_sub hm]

/-- For `max_iter = 0` (accepted by the validation) the only way for the loop to return is to find no slivers. -/
theorem C53_sliver_zero {E : Env κ ρ} (hE : E.maxIter = 0) {n : ℕ} {p0 p : List (Fin 3 → ℝ)} {t : List (List ℕ)} {b : Bool}
    (h : run E n (start p0) = .done p t b) : b = true := by
  obtain ⟨m, s, -, -, hd⟩ := run_done h
  unfold step at hd
  cases ht : topology E s with
  | error e => simp [ht] at hd
  | ok r =>
    obtain ⟨p1, t1, bad⟩ := r
    simp only [ht] at hd
    split at hd
    · rename_i hc
      rw [hE] at hc
      have : (0 : ℝ) ≤ s.count := Nat.cast_nonneg _
      linarith
    · split at hd
      · split at hd
        · simp at hd
        · simp only [Outcome.done.injEq] at hd; exact hd.2.2.symm
      · split at hd <;> simp at hd

/-! ## What the detection cannot see -/

theorem angleOrNan_collinear {p0 p1 p2 p3 : Fin 3 → ℝ} (h : Collinear ℝ {p0, p1, p2}) : angleOrNan p0 p1 p2 p3 = none := by
  unfold angleOrNan
  simp only
  rw [if_pos]
  by_contra hcon
  push Not at hcon
  obtain ⟨h1, h2, -, h4, -⟩ := hcon
  apply h4
  rw [collinear_iff_of_mem (p₀ := p0) (by simp)] at h
  obtain ⟨v, hv⟩ := h
  obtain ⟨r, hr⟩ := hv p1 (by simp)
  obtain ⟨s, hs⟩ := hv p2 (by simp)
  have e1 : ∀ j, p1 j - p0 j = r * v j := by intro j; rw [hr]; simp
  have e2 : ∀ j, p2 j - p0 j = s * v j := by intro j; rw [hs]; simp
  have hz : cross (fun j => (p1 j - p0 j) / l2 fun j => p1 j - p0 j) (fun j => (p2 j - p0 j) / l2 fun j => p2 j - p0 j) = 0 := by
    ext i
    simp only [e1, e2]
    fin_cases i <;> simp [cross] <;> ring
  rw [hz]
  simp [l2, dot]

/-- **C61, what is missed.** A cell whose four vertices are on one line is not detected whatever the bounds are: all six
of its angles are NaN. -/
theorem C61_degenerate_missed {q : Fin 4 → Fin 3 → ℝ} (h : Collinear ℝ (Set.range q)) (lo hi : ℝ) :
    badCells lo hi [q 0, q 1, q 2, q 3] [[0, 1, 2, 3]] = .ok [] := by
  have hc : corners [q 0, q 1, q 2, q 3] [0, 1, 2, 3] = .ok q := corners_ok rfl
  have hn : ∀ a b c d : Fin 4, angleOrNan (q a) (q b) (q c) (q d) = none := by
    intro a b c d
    apply angleOrNan_collinear
    apply h.subset
    intro x hx
    rcases hx with rfl | rfl | rfl <;> exact ⟨_, rfl⟩
  have hcell : cellAnglesN q = [none, none, none, none, none, none] := by
    have := hn
    simp only [cellAnglesN, List.map, List.range, List.range.loop, hn]
  simp only [badCells, allAngles, rowAngles, List.mapM_cons, List.mapM_nil, hc, bind, Except.bind, pure, Except.pure, hcell]
  rfl

/-- There are such cells with four different vertices. -/
example : ∃ q : Fin 4 → Fin 3 → ℝ, Function.Injective q ∧ Collinear ℝ (Set.range q) := by
  refine ⟨fun i _ => ((i : ℕ) : ℝ), fun a b h => ?_, ?_⟩
  · have h2 : ((a : ℕ) : ℝ) = ((b : ℕ) : ℝ) := congrFun h 0
    exact Fin.ext (by exact_mod_cast h2)
  · have hm : (0 : Fin 3 → ℝ) ∈ Set.range fun (i : Fin 4) (_ : Fin 3) => (((i : ℕ) : ℕ) : ℝ) := ⟨0, by ext; simp⟩
    rw [collinear_iff_of_mem hm]
    refine ⟨fun _ => 1, ?_⟩
    rintro _ ⟨i, rfl⟩
    exact ⟨i, by ext; simp⟩

/-! ## Concrete runs -/

/-- The corner tetrahedron. -/
def corner : Fin 4 → Fin 3 → ℝ := ![![0, 0, 0], ![1, 0, 0], ![0, 1, 0], ![0, 0, 1]]

theorem corner_val : corner 0 0 = 0 ∧ corner 0 1 = 0 ∧ corner 0 2 = 0 ∧ corner 1 0 = 1 ∧ corner 1 1 = 0 ∧ corner 1 2 = 0 ∧
    corner 2 0 = 0 ∧ corner 2 1 = 1 ∧ corner 2 2 = 0 ∧ corner 3 0 = 0 ∧ corner 3 1 = 0 ∧ corner 3 2 = 1 :=
  ⟨rfl, rfl, rfl, rfl, rfl, rfl, rfl, rfl, rfl, rfl, rfl, rfl⟩

theorem corner_ind : AffineIndependent ℝ corner := by
  by_contra h
  have := (C44_degenerate3 (corner 0) (corner 1) (corner 2) (corner 3)).2 (by
    have e : ![corner 0, corner 1, corner 2, corner 3] = corner := by ext i; fin_cases i <;> rfl
    rwa [e])
  simp only [vol3, cross, Matrix.cons_val_zero, Matrix.cons_val_one, Matrix.cons_val, corner_val] at this
  norm_num at this

/-- An angle with cosine between 0 and `√2/2` is between 45 and 90 degrees. -/
theorem angle_between {u v : Fin 3 → ℝ} (h0 : 0 ≤ dot u v) (h1 : 2 * (dot u v * dot u v) ≤ dot u u * dot v v) (h2 : 0 < dot u u) (h3 : 0 < dot v v) :
    Real.pi / 4 ≤ InnerProductGeometry.angle (e3 u) (e3 v) ∧ InnerProductGeometry.angle (e3 u) (e3 v) ≤ Real.pi / 2 := by
  unfold InnerProductGeometry.angle
  rw [inner_e3, norm_e3, norm_e3]
  constructor
  · rw [show Real.pi / 4 = Real.arccos (Real.sqrt 2 / 2) by
      rw [← Real.cos_pi_div_four, Real.arccos_cos (by positivity) (by linarith [Real.pi_pos])]]
    apply Real.arccos_le_arccos
    rw [div_le_iff₀ (show 0 < l2 u * l2 v from mul_pos (Real.sqrt_pos.2 h2) (Real.sqrt_pos.2 h3))]
    apply le_of_sq_le_sq _ (by have := l2_nonneg u; have := l2_nonneg v; positivity)
    have e1 := l2_sq u; have e2 := l2_sq v
    have e3 : Real.sqrt 2 ^ 2 = 2 := by norm_num
    calc dot u v ^ 2 ≤ dot u u * dot v v / 2 := by nlinarith
      _ = (Real.sqrt 2 / 2 * (l2 u * l2 v)) ^ 2 := by
        rw [← e1, ← e2]; ring_nf; rw [e3]; ring
  · rw [← Real.arccos_zero]
    apply Real.arccos_le_arccos
    have := l2_nonneg u; have := l2_nonneg v
    positivity

theorem corner_within : Within (Real.pi / 4) (Real.pi / 2) corner := by
  rw [within_iff]
  intro x hx
  simp only [List.mem_cons, List.not_mem_nil, or_false] at hx
  rcases hx with rfl | rfl | rfl | rfl | rfl | rfl <;> unfold dihedral <;> rw [e3_sub, e3_sub, e3_sub, rej_e3, rej_e3] <;>
    apply angle_between <;> norm_num [dot, corner_val]

/-- One tetrahedron, whatever the moves; everything is inside the domain. -/
def exEnv (lo hi maxIter : ℝ) : Env (List ℝ) (List ℕ) where
  tools := { insideTools with ptol := 1 }
  dt _ _ := ([corner 0, corner 1, corner 2, corner 3], [[0, 1, 2, 3]])
  perturb _ _ := 1
  fd _ := -1
  h0 := 1
  geps := 0.1
  deps := 1 / 1000
  minDh := lo
  maxDh := hi
  gamma := 1
  preserve := false
  maxIter := maxIter
  opts := ⟨true, true, false⟩

theorem exEnv_dtOk (lo hi m : ℝ) : DtOk (exEnv lo hi m) := by
  intro k s
  refine ⟨by simp [exEnv], by simp [exEnv, InRange], by simp [exEnv], ?_⟩
  have hs : snapLen (1 : ℝ) (corner 0) [corner 1, corner 2, corner 3] = 1 := by
    norm_num [snapLen, colMax, colMin, corner_val, List.ofFn_succ]
  have hr0 : npRound (0 : ℝ) = 0 := by simp [npRound]
  have hr1 : npRound (1 : ℝ) = 1 := by simp [npRound]
  have hk : ∀ x : Fin 3 → ℝ, keyOf (exEnv lo hi m).tools.enc (exEnv lo hi m).tools.ptol ((exEnv lo hi m).dt k s).1 x =
      [npRound (x 0), npRound (x 1), npRound (x 2)] := by
    intro x
    simp only [exEnv, keyOf, insideTools, hs]
    simp [snapPt]
  intro x hx y hy h
  rw [hk, hk] at h
  simp only [exEnv, List.mem_cons, List.not_mem_nil, or_false] at hx hy
  rcases hx with rfl | rfl | rfl | rfl <;> rcases hy with rfl | rfl | rfl | rfl <;> first | rfl | (simp [corner_val, hr0, hr1] at h)

theorem exEnv_topology (lo hi m : ℝ) (s : State) : Project.removeOutside (exEnv lo hi m).fd (exEnv lo hi m).geps
    ((exEnv lo hi m).dt s.count s.p).1 ((exEnv lo hi m).dt s.count s.p).2 = .ok [[0, 1, 2, 3]] := by
  have : (-1 : ℝ) < -0.1 := by norm_num
  simp [exEnv, Project.removeOutside, Project.keeps, Np.take, item, bind, Except.bind, pure, Except.pure, this, List.mapM_cons]

/-- The hypotheses of `C61_success` are met: with bounds of 10 and 170 degrees a call on the corner tetrahedron finds no
slivers, and returns a cell. -/
example (p0 : List (Fin 3 → ℝ)) : ∃ p t, run (exEnv (radians 10) (radians 170) 50) 1 (start p0) = .done p t true ∧ t ≠ [] := by
  set E := exEnv (radians 10) (radians 170) 50 with hE
  have hpi := Real.pi_pos
  obtain ⟨bad, hb, -, hlt, hdet⟩ := C61_detect (radians 10) (radians 170) (p := [corner 0, corner 1, corner 2, corner 3])
    (t := [[0, 1, 2, 3]]) (by simp [InRange]) (by simp)
  have hw : Within (radians 10) (radians 170) corner := by
    intro σ
    obtain ⟨h1, h2⟩ := corner_within σ
    constructor
    · refine le_trans ?_ h1; unfold radians; linarith
    · refine le_trans h2 ?_; unfold radians; linarith
  have hnil : bad = [] := by
    apply List.eq_nil_iff_forall_not_mem.2
    intro k hk
    have h0 : k = 0 := by simpa using hlt k hk
    subst h0
    exact (hdet 0 [0, 1, 2, 3] corner rfl rfl (solid_of_ind corner_ind)).1 hk hw
  subst hnil
  obtain ⟨hne, hin, -, hk⟩ := exEnv_dtOk (radians 10) (radians 170) 50 0 p0
  obtain ⟨p', t', hf, -, hback⟩ := fixed_ok (T := (exEnv (radians 10) (radians 170) 50).tools) Function.injective_id hne hin hk
  refine ⟨p', t', ?_, ?_⟩
  · have htop : topology E (start p0) = .ok ([corner 0, corner 1, corner 2, corner 3], [[0, 1, 2, 3]], []) := by
      simp only [topology, hE, exEnv_topology, bind, Except.bind, pure, Except.pure]
      simp only [exEnv, hb]
    have hf' : fixed E.tools [corner 0, corner 1, corner 2, corner 3] [[0, 1, 2, 3]] = .ok (p', t') := hf
    simp only [run, step, htop]
    rw [if_neg (by simp [hE, exEnv, start]; norm_num), if_pos trivial, hf']
  · rintro rfl
    obtain ⟨r, hr, -⟩ := hback [0, 1, 2, 3] (by simp [exEnv])
    simp at hr

/-- With bounds of 10 and 80 degrees the same cell is detected (three of its angles are right angles). -/
example : ∃ bad, badCells (radians 10) (radians 80) [corner 0, corner 1, corner 2, corner 3] [[0, 1, 2, 3]] = .ok bad ∧ 0 ∈ bad := by
  obtain ⟨bad, hb, -, -, hdet⟩ := C61_detect (radians 10) (radians 80) (p := [corner 0, corner 1, corner 2, corner 3])
    (t := [[0, 1, 2, 3]]) (by simp [InRange]) (by simp)
  refine ⟨bad, hb, (hdet 0 [0, 1, 2, 3] corner rfl rfl (solid_of_ind corner_ind)).2 fun hw => ?_⟩
  have h := (hw 1).2
  have hpi := Real.pi_pos
  have h2 : dihedral (corner 0) (corner 1) (corner 2) (corner 3) = Real.pi / 2 := by
    unfold dihedral
    rw [← InnerProductGeometry.inner_eq_zero_iff_angle_eq_pi_div_two, e3_sub, e3_sub, e3_sub, rej_e3, rej_e3, inner_e3]
    norm_num [dot, corner_val]
  simp only [Equiv.Perm.one_apply] at h
  rw [h2] at h
  unfold radians at h
  linarith

end

end SM.Sliver
