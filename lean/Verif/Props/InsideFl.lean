import Verif.Model.InsideFl
import Verif.Props.Linter
import Verif.Props.Simplex
import Verif.Props.SdfFl
import Verif.Lemmas.Rounding
import Verif.Lemmas.Binary64
import Mathlib.Tactic.Linarith
import Mathlib.Tactic.NormNum
import Mathlib.Tactic.FinCases

/-!
# C129: the overlap tests in floating-point arithmetic
-/

namespace SM.InsideFl

open SM.Round FixMesh

variable {K : Type} [Field K] [LinearOrder K] [IsStrictOrderedRing K] {u : K} {rnd : K → K}

/-! ### Tetrahedra -/

/-- The entries of the matrix are bounded, those of the last column by 1. -/
def Bounded (B : K) (m : ℕ → K) : Prop := (∀ k, k % 4 ≠ 3 → |m k| ≤ B) ∧ ∀ k, k % 4 = 3 → |m k| ≤ 1

/-- The exact product of a term. -/
def exact4 (m : ℕ → K) (x : Bool × ℕ × ℕ × ℕ × ℕ) : K := m x.2.1 * m x.2.2.1 * m x.2.2.2.1 * m x.2.2.2.2

theorem prod4_near (hu : 0 ≤ u) (ha : Accurate rnd u) {B : K} {m : ℕ → K} {x : Bool × ℕ × ℕ × ℕ × ℕ} (h1 : |m x.2.1| ≤ B) (h2 : |m x.2.2.1| ≤ B) (h3 : |m x.2.2.2.1| ≤ B)
    (h4 : |m x.2.2.2.2| ≤ 1) : Near u 3 (B ^ 3) (prod4 rnd m x) (exact4 m x) := by
  have e1 := (((Near.exact (u := u) h1).mul hu (Near.exact h2)).rnd hu ha)
  have e2 := (e1.mul hu (Near.exact h3)).rnd hu ha
  have e3 := (e2.mul hu (Near.exact h4)).rnd hu ha
  rw [show B * B * B * 1 = B ^ 3 by ring] at e3
  exact e3

/-- The exact sum. -/
def exactSum (m : ℕ → K) : K → List (Bool × ℕ × ℕ × ℕ × ℕ) → K
  | s, [] => s
  | s, x :: l => exactSum m (if x.1 then s + exact4 m x else s - exact4 m x) l

theorem sum_near (hu : 0 ≤ u) (ha : Accurate rnd u) {B : K} (hB : 0 ≤ B) {m : ℕ → K} : ∀ (l : List (Bool × ℕ × ℕ × ℕ × ℕ)) (k : ℕ) (S s' s : K), 3 ≤ k →
    Near u k S s' s → (∀ x ∈ l, Near u 3 (B ^ 3) (prod4 rnd m x) (exact4 m x)) → Near u (k + l.length) (S + l.length * B ^ 3) (sumFrom rnd m s' l) (exactSum m s l)
  | [], k, S, s', s, _, h, _ => by simpa [sumFrom, exactSum] using h
  | x :: l, k, S, s', s, hk, h, hl => by
    have hx := (hl x (by simp)).weaken hu hk le_rfl
    have step : Near u (k + 1) (S + B ^ 3) (rnd (if x.1 then s' + prod4 rnd m x else s' - prod4 rnd m x)) (if x.1 then s + exact4 m x else s - exact4 m x) := by
      by_cases hb : x.1 = true
      · simp only [hb, if_true]; exact (h.add hx).rnd hu ha
      · simp only [hb]; exact (h.sub hx).rnd hu ha
    have := sum_near hu ha hB l (k + 1) _ _ _ (by omega) step fun y hy => hl y (by simp [hy])
    simp only [sumFrom, exactSum, List.length_cons]
    rw [show k + (l.length + 1) = k + 1 + l.length by omega, show S + ((l.length + 1 : ℕ) : K) * B ^ 3 = S + B ^ 3 + l.length * B ^ 3 by push_cast; ring]
    exact this

theorem exactSum_terms (m : ℕ → K) : exactSum m (exact4 m (true, 12, 9, 6, 3)) terms.tail = Simplex.det4 m := by
  simp [terms, exactSum, exact4, Simplex.det4]

/-- Error of the computed determinant. -/
theorem det4_near (hu : 0 ≤ u) (ha : Accurate rnd u) {B : K} (hB : 0 ≤ B) {m : ℕ → K} (hm : Bounded B m) :
    |det4 rnd m - Simplex.det4 m| ≤ ((1 + u) ^ 26 - 1) * (24 * B ^ 3) := by
  have hall : ∀ x ∈ terms, Near u 3 (B ^ 3) (prod4 rnd m x) (exact4 m x) := by
    intro x hx
    refine prod4_near hu ha (hm.1 _ ?_) (hm.1 _ ?_) (hm.1 _ ?_) (hm.2 _ ?_) <;> (revert x hx; decide)
  have h := sum_near hu ha hB (m := m) terms.tail 3 _ _ _ le_rfl (hall (true, 12, 9, 6, 3) (by simp [terms])) fun x hx => hall x (List.mem_of_mem_tail hx)
  rw [exactSum_terms] at h
  have hl : (terms.tail).length = 23 := rfl
  rw [hl] at h
  have := h.2
  rw [show B ^ 3 + ((23 : ℕ) : K) * B ^ 3 = 24 * B ^ 3 by push_cast; ring] at this
  exact this

theorem homog_bounded {B : K} {a b c d : Fin 3 → K} (h : ∀ x ∈ [a, b, c, d], ∀ i, |x i| ≤ B) : Bounded B (Simplex.rowMajor (Simplex.homog a b c d)) := by
  have ha := h a (by simp); have hb := h b (by simp); have hc := h c (by simp); have hd := h d (by simp)
  have key : ∀ r : Fin 4, (∀ j : Fin 4, j ≠ 3 → |Simplex.homog a b c d r j| ≤ B) ∧ Simplex.homog a b c d r 3 = 1 := by
    intro r
    constructor
    · intro j hj
      fin_cases r <;> fin_cases j <;> first | exact absurd rfl hj | (simp [Simplex.homog]; first | apply ha | apply hb | apply hc | apply hd)
    · fin_cases r <;> simp [Simplex.homog]
  constructor
  · intro k hk
    refine (key _).1 _ fun h3 => hk ?_
    have := congrArg Fin.val h3
    simpa [Fin.ofNat] using this
  · intro k hk
    have : Fin.ofNat 4 (k % 4) = 3 := by rw [hk]; rfl
    simp only [Simplex.rowMajor, this, (key _).2, abs_one, le_refl]

/-- Error of the computed determinant of four points with coordinates up to `B`; the determinant is `-6` times the signed volume. -/
theorem det_error (hu : 0 ≤ u) (ha : Accurate rnd u) {B : K} {a b c d : Fin 3 → K} (h : ∀ x ∈ [a, b, c, d], ∀ i, |x i| ≤ B) :
    |det4 rnd (Simplex.rowMajor (Simplex.homog a b c d)) + 6 * vol3 a b c d| ≤ ((1 + u) ^ 26 - 1) * (24 * B ^ 3) := by
  have hB : 0 ≤ B := (abs_nonneg _).trans (h a (by simp) 0)
  have h1 := det4_near hu ha hB (homog_bounded h)
  have h2 : Simplex.det4 (Simplex.rowMajor (Simplex.homog a b c d)) = -(6 * vol3 a b c d) := Simplex.det4_homog a b c d
  rw [h2, sub_neg_eq_add] at h1
  exact h1

/-! ### Specification -/

/-- The signed volumes of the four tetrahedra in which one vertex of `a b c d` is replaced by `x`: the barycentric coordinates of `x` times the volume
(`C129_weights`). -/
def parts (x a b c d : Fin 3 → K) : List K := [vol3 x b c d, vol3 a x c d, vol3 a b x d, vol3 a b c x]

/-- `x` is inside the tetrahedron by more than `E` in terms of six-fold volumes. -/
def Inside (E : K) (x a b c d : Fin 3 → K) : Prop :=
  (E < 6 * vol3 a b c d ∧ ∀ y ∈ parts x a b c d, E < 6 * y) ∨ (6 * vol3 a b c d < -E ∧ ∀ y ∈ parts x a b c d, 6 * y < -E)

/-- `x` is outside the tetrahedron, on the other side of one of its faces, by more than `E`. -/
def Outside (E : K) (x a b c d : Fin 3 → K) : Prop :=
  ∃ y ∈ parts x a b c d, (E < 6 * vol3 a b c d ∧ 6 * y < -E) ∨ (6 * vol3 a b c d < -E ∧ E < 6 * y)

theorem C129_weights {x a b c d : Fin 3 → K} {w0 w1 w2 w3 : K} (hw : w0 + w1 + w2 + w3 = 1) (hx : ∀ i, x i = w0 * a i + w1 * b i + w2 * c i + w3 * d i) :
    parts x a b c d = [w0 * vol3 a b c d, w1 * vol3 a b c d, w2 * vol3 a b c d, w3 * vol3 a b c d] := by
  have e : w3 = 1 - w0 - w1 - w2 := by linarith
  subst e
  simp only [parts, vol3, cross, hx]
  simp
  refine ⟨?_, ?_, ?_, ?_⟩ <;> ring

theorem sgn_pos {E : K} {a b c d : Fin 3 → K} (h : |det4 rnd (Simplex.rowMajor (Simplex.homog a b c d)) + 6 * vol3 a b c d| ≤ E) (hv : E < 6 * vol3 a b c d) :
    sgn rnd a b c d = -1 := by
  unfold sgn
  rw [sign_eq_neg_one_iff]
  have := (abs_le.1 h).2
  linarith

theorem sgn_neg {E : K} {a b c d : Fin 3 → K} (h : |det4 rnd (Simplex.rowMajor (Simplex.homog a b c d)) + 6 * vol3 a b c d| ≤ E) (hv : 6 * vol3 a b c d < -E) :
    sgn rnd a b c d = 1 := by
  unfold sgn
  rw [sign_eq_one_iff]
  have := (abs_le.1 h).1
  linarith

omit [IsStrictOrderedRing K] in
theorem inEntity3_iff (p p1 p2 p3 p4 : Fin 3 → K) :
    vertexInEntity3 rnd p p1 p2 p3 p4 = true ↔ sgn rnd p1 p2 p3 p4 ≠ 0 ∧
      sgn rnd p p2 p3 p4 = sgn rnd p1 p2 p3 p4 ∧ sgn rnd p1 p p3 p4 = sgn rnd p1 p2 p3 p4 ∧
      sgn rnd p1 p2 p p4 = sgn rnd p1 p2 p3 p4 ∧ sgn rnd p1 p2 p3 p = sgn rnd p1 p2 p3 p4 := by
  unfold vertexInEntity3
  generalize sgn rnd p1 p2 p3 p4 = s0
  generalize sgn rnd p p2 p3 p4 = s1
  generalize sgn rnd p1 p p3 p4 = s2
  generalize sgn rnd p1 p2 p p4 = s3
  generalize sgn rnd p1 p2 p3 p = s4
  revert s0 s1 s2 s3 s4
  decide

/-- **C129 (tetrahedra).** `vertex_in_entity3` with every operation rounded, on points with coordinates up to `B`: it returns True for a point inside, and False
for a point outside, by more than `24 ((1 + u)^26 - 1) B^3` in terms of six-fold volumes. -/
theorem C129_tetrahedron (hu : 0 ≤ u) (ha : Accurate rnd u) {B : K} {x a b c d : Fin 3 → K} (h : ∀ y ∈ [x, a, b, c, d], ∀ i, |y i| ≤ B) :
    (Inside (((1 + u) ^ 26 - 1) * (24 * B ^ 3)) x a b c d → vertexInEntity3 rnd x a b c d = true) ∧
      (Outside (((1 + u) ^ 26 - 1) * (24 * B ^ 3)) x a b c d → vertexInEntity3 rnd x a b c d = false) := by
  have hx := h x (by simp); have ha' := h a (by simp); have hb := h b (by simp); have hc := h c (by simp); have hd := h d (by simp)
  have e0 := det_error (a := a) (b := b) (c := c) (d := d) hu ha (B := B) (by simp only [List.mem_cons, List.not_mem_nil, or_false]; rintro y (rfl | rfl | rfl | rfl) <;> assumption)
  have e1 := det_error (a := x) (b := b) (c := c) (d := d) hu ha (B := B) (by simp only [List.mem_cons, List.not_mem_nil, or_false]; rintro y (rfl | rfl | rfl | rfl) <;> assumption)
  have e2 := det_error (a := a) (b := x) (c := c) (d := d) hu ha (B := B) (by simp only [List.mem_cons, List.not_mem_nil, or_false]; rintro y (rfl | rfl | rfl | rfl) <;> assumption)
  have e3 := det_error (a := a) (b := b) (c := x) (d := d) hu ha (B := B) (by simp only [List.mem_cons, List.not_mem_nil, or_false]; rintro y (rfl | rfl | rfl | rfl) <;> assumption)
  have e4 := det_error (a := a) (b := b) (c := c) (d := x) hu ha (B := B) (by simp only [List.mem_cons, List.not_mem_nil, or_false]; rintro y (rfl | rfl | rfl | rfl) <;> assumption)
  constructor
  · rintro (⟨h0, hy⟩ | ⟨h0, hy⟩) <;>
    · simp only [parts, List.mem_cons, List.not_mem_nil, or_false, forall_eq_or_imp, forall_eq] at hy
      obtain ⟨y1, y2, y3, y4⟩ := hy
      rw [inEntity3_iff]
      first
        | (rw [sgn_pos e0 h0, sgn_pos e1 y1, sgn_pos e2 y2, sgn_pos e3 y3, sgn_pos e4 y4]; decide)
        | (rw [sgn_neg e0 h0, sgn_neg e1 y1, sgn_neg e2 y2, sgn_neg e3 y3, sgn_neg e4 y4]; decide)
  · rintro ⟨y, hy, hs⟩
    rw [← Bool.not_eq_true, inEntity3_iff]
    rintro ⟨-, s1, s2, s3, s4⟩
    simp only [parts, List.mem_cons, List.not_mem_nil, or_false] at hy
    rcases hs with ⟨h0, h1⟩ | ⟨h0, h1⟩
    · have q := sgn_pos e0 h0
      rw [q] at s1 s2 s3 s4
      rcases hy with rfl | rfl | rfl | rfl
      · rw [sgn_neg e1 h1] at s1; exact absurd s1 (by decide)
      · rw [sgn_neg e2 h1] at s2; exact absurd s2 (by decide)
      · rw [sgn_neg e3 h1] at s3; exact absurd s3 (by decide)
      · rw [sgn_neg e4 h1] at s4; exact absurd s4 (by decide)
    · have q := sgn_neg e0 h0
      rw [q] at s1 s2 s3 s4
      rcases hy with rfl | rfl | rfl | rfl
      · rw [sgn_pos e1 h1] at s1; exact absurd s1 (by decide)
      · rw [sgn_pos e2 h1] at s2; exact absurd s2 (by decide)
      · rw [sgn_pos e3 h1] at s3; exact absurd s3 (by decide)
      · rw [sgn_pos e4 h1] at s4; exact absurd s4 (by decide)

/-! ### Overlaps of tetrahedra -/

/-- Error of the computed centroid. -/
theorem centroid_near (hu : 0 ≤ u) (ha : Accurate rnd u) {B : K} {a b c d : Fin 3 → K} (h : ∀ y ∈ [a, b, c, d], ∀ i, |y i| ≤ B) (i : Fin 3) :
    Near u 4 B (centroid rnd [a, b, c, d] 3 i) ((a i + b i + c i + d i) / 4) := by
  have e1 := ((Near.exact (u := u) (h a (by simp) i)).add (Near.exact (h b (by simp) i))).rnd hu ha
  have e2 := (e1.add ((Near.exact (u := u) (h c (by simp) i)).weaken hu (Nat.zero_le 1) le_rfl)).rnd hu ha
  have e3 := (e2.add ((Near.exact (u := u) (h d (by simp) i)).weaken hu (Nat.zero_le 2) le_rfl)).rnd hu ha
  have e4 := (e3.div (c := ((3 : ℕ) : K) + 1) (by positivity)).rnd hu ha
  rw [show (B + B + B + B) / (((3 : ℕ) : K) + 1) = B by push_cast; rw [show (3 : K) + 1 = 4 by norm_num]; ring] at e4
  have e : (a i + b i + c i + d i) / (((3 : ℕ) : K) + 1) = (a i + b i + c i + d i) / 4 := by push_cast; rw [show (3 : K) + 1 = 4 by norm_num]
  rw [e] at e4
  exact e4

theorem abs_diff_le {B x y : K} (hx : |x| ≤ B) (hy : |y| ≤ B) : |x - y| ≤ 2 * B := by
  have := abs_sub x y
  rw [abs_le] at hx hy ⊢
  constructor <;> linarith

/-- Moving one vertex by at most `δ` changes the six-fold volume by at most `24 B^2 δ`. -/
theorem vol3_move {B δ : K} {a b c x x' : Fin 3 → K} (ha : ∀ i, |a i| ≤ B) (hb : ∀ i, |b i| ≤ B) (hc : ∀ i, |c i| ≤ B) (hδ : ∀ i, |x' i - x i| ≤ δ) :
    |6 * vol3 a b c x' - 6 * vol3 a b c x| ≤ 24 * B ^ 2 * δ := by
  have hB : 0 ≤ B := (abs_nonneg _).trans (ha 0)
  have hm : ∀ i j, |(b i - a i) * (c j - a j) - (b j - a j) * (c i - a i)| ≤ 8 * B ^ 2 := by
    intro i j
    have h1 : ∀ i j, |(b i - a i) * (c j - a j)| ≤ 4 * B ^ 2 := by
      intro i j
      rw [abs_mul]
      have := mul_le_mul (abs_diff_le (hb i) (ha i)) (abs_diff_le (hc j) (ha j)) (abs_nonneg _) (by linarith)
      linarith
    have := abs_sub ((b i - a i) * (c j - a j)) ((b j - a j) * (c i - a i))
    have := h1 i j
    have := h1 j i
    linarith
  have e : 6 * vol3 a b c x' - 6 * vol3 a b c x =
      ((b 1 - a 1) * (c 2 - a 2) - (b 2 - a 2) * (c 1 - a 1)) * (x' 0 - x 0) + ((b 2 - a 2) * (c 0 - a 0) - (b 0 - a 0) * (c 2 - a 2)) * (x' 1 - x 1) +
      ((b 0 - a 0) * (c 1 - a 1) - (b 1 - a 1) * (c 0 - a 0)) * (x' 2 - x 2) := by
    simp only [vol3, cross]
    simp
    ring
  rw [e]
  have t : ∀ i j k, |((b i - a i) * (c j - a j) - (b j - a j) * (c i - a i)) * (x' k - x k)| ≤ 8 * B ^ 2 * δ := by
    intro i j k
    rw [abs_mul]
    exact mul_le_mul (hm i j) (hδ k) (abs_nonneg _) (by positivity)
  refine (abs_add_le _ _).trans ?_
  have := abs_add_le (((b 1 - a 1) * (c 2 - a 2) - (b 2 - a 2) * (c 1 - a 1)) * (x' 0 - x 0)) (((b 2 - a 2) * (c 0 - a 0) - (b 0 - a 0) * (c 2 - a 2)) * (x' 1 - x 1))
  have := t 1 2 0
  have := t 2 0 1
  have := t 0 1 2
  linarith

/-- The centroid of four points. -/
def mid (a b c d : Fin 3 → K) : Fin 3 → K := fun i => (a i + b i + c i + d i) / 4

/-- The parts of the computed and of the exact centroid. -/
theorem parts_move {B δ : K} {a b c d x x' : Fin 3 → K} (h : ∀ y ∈ [a, b, c, d], ∀ i, |y i| ≤ B) (hδ : ∀ i, |x' i - x i| ≤ δ) :
    List.Forall₂ (fun y' y => |6 * y' - 6 * y| ≤ 24 * B ^ 2 * δ) (parts x' a b c d) (parts x a b c d) := by
  have ha := h a (by simp); have hb := h b (by simp); have hc := h c (by simp); have hd := h d (by simp)
  have s1 : ∀ z : Fin 3 → K, vol3 z b c d = -vol3 d b c z := by intro z; simp only [vol3, cross]; simp; ring
  have s2 : ∀ z : Fin 3 → K, vol3 a z c d = -vol3 a d c z := by intro z; simp only [vol3, cross]; simp; ring
  have s3 : ∀ z : Fin 3 → K, vol3 a b z d = -vol3 a b d z := by intro z; simp only [vol3, cross]; simp; ring
  have neg : ∀ y y' : K, |6 * -y' - 6 * -y| = |6 * y' - 6 * y| := by intro y y'; rw [show 6 * -y' - 6 * -y = -(6 * y' - 6 * y) by ring, abs_neg]
  simp only [parts, List.forall₂_cons, List.Forall₂.nil, and_true, s1, s2, s3, neg]
  exact ⟨vol3_move hd hb hc hδ, vol3_move ha hd hc hδ, vol3_move ha hb hd hδ, vol3_move ha hb hc hδ⟩

theorem Inside.move {E E' η : K} (hE : E' + η ≤ E) {a b c d x x' : Fin 3 → K} (hη : 0 ≤ η)
    (hp : List.Forall₂ (fun y' y => |6 * y' - 6 * y| ≤ η) (parts x' a b c d) (parts x a b c d)) (h : Inside E x a b c d) : Inside E' x' a b c d := by
  simp only [Inside, parts, List.forall₂_cons, List.Forall₂.nil, and_true, List.mem_cons, List.not_mem_nil, or_false, forall_eq_or_imp, forall_eq, abs_le] at hp h ⊢
  obtain ⟨⟨_, _⟩, ⟨_, _⟩, ⟨_, _⟩, ⟨_, _⟩⟩ := hp
  rcases h with ⟨h0, h1, h2, h3, h4⟩ | ⟨h0, h1, h2, h3, h4⟩
  · left; refine ⟨?_, ?_, ?_, ?_, ?_⟩ <;> linarith
  · right; refine ⟨?_, ?_, ?_, ?_, ?_⟩ <;> linarith

theorem Outside.move {E E' η : K} (hE : E' + η ≤ E) {a b c d x x' : Fin 3 → K} (hη : 0 ≤ η)
    (hp : List.Forall₂ (fun y' y => |6 * y' - 6 * y| ≤ η) (parts x' a b c d) (parts x a b c d)) (h : Outside E x a b c d) : Outside E' x' a b c d := by
  simp only [Outside, parts, List.forall₂_cons, List.Forall₂.nil, and_true, List.mem_cons, List.not_mem_nil, or_false, exists_eq_or_imp, exists_eq_left, abs_le] at hp h ⊢
  obtain ⟨⟨_, _⟩, ⟨_, _⟩, ⟨_, _⟩, ⟨_, _⟩⟩ := hp
  rcases h with (⟨h0, h1⟩ | ⟨h0, h1⟩) | (⟨h0, h1⟩ | ⟨h0, h1⟩) | (⟨h0, h1⟩ | ⟨h0, h1⟩) | (⟨h0, h1⟩ | ⟨h0, h1⟩)
  · exact .inl (.inl ⟨by linarith, by linarith⟩)
  · exact .inl (.inr ⟨by linarith, by linarith⟩)
  · exact .inr (.inl (.inl ⟨by linarith, by linarith⟩))
  · exact .inr (.inl (.inr ⟨by linarith, by linarith⟩))
  · exact .inr (.inr (.inl (.inl ⟨by linarith, by linarith⟩)))
  · exact .inr (.inr (.inl (.inr ⟨by linarith, by linarith⟩)))
  · exact .inr (.inr (.inr (.inl ⟨by linarith, by linarith⟩)))
  · exact .inr (.inr (.inr (.inr ⟨by linarith, by linarith⟩)))

/-- The tolerance of the overlap test in three dimensions, for coordinates up to `B`. -/
def tol3 (u B : K) : K := ((1 + u) ^ 38 - 1) * (24 * B ^ 3)

/-- The test of one pair of tetrahedra, including the rounding of the centroid. -/
theorem pair_test (hu : 0 ≤ u) (ha : Accurate rnd u) {B : K} {a b c d a' b' c' d' : Fin 3 → K} (h : ∀ y ∈ [a, b, c, d], ∀ i, |y i| ≤ B)
    (h' : ∀ y ∈ [a', b', c', d'], ∀ i, |y i| ≤ B) :
    (Inside (tol3 u B) (mid a b c d) a' b' c' d' → inside3 rnd (centroid rnd [a, b, c, d] 3) [a', b', c', d'] = true) ∧
      (Outside (tol3 u B) (mid a b c d) a' b' c' d' → inside3 rnd (centroid rnd [a, b, c, d] 3) [a', b', c', d'] = false) := by
  have hB : 0 ≤ B := (abs_nonneg _).trans (h a (by simp) 0)
  have hc := centroid_near hu ha h
  have h1 : 1 ≤ (1 + u) ^ 4 := one_le_pow_u hu 4
  have h12 : 1 ≤ (1 + u) ^ 8 := one_le_pow_u hu 8
  have hmove := parts_move (x := mid a b c d) (x' := centroid rnd [a, b, c, d] 3) h' fun i => (hc i).2
  have hη : 0 ≤ 24 * B ^ 2 * (((1 + u) ^ 4 - 1) * B) := mul_nonneg (by positivity) (mul_nonneg (by linarith) hB)
  have hbd : ∀ y ∈ [centroid rnd [a, b, c, d] 3, a', b', c', d'], ∀ i, |y i| ≤ (1 + u) ^ 4 * B := by
    intro y hy i
    rcases List.mem_cons.1 hy with rfl | hy
    · exact (hc i).size
    · have := h' y hy i
      nlinarith
  have hE : ((1 + u) ^ 26 - 1) * (24 * ((1 + u) ^ 4 * B) ^ 3) + 24 * B ^ 2 * (((1 + u) ^ 4 - 1) * B) ≤ tol3 u B := by
    have e : tol3 u B - (((1 + u) ^ 26 - 1) * (24 * ((1 + u) ^ 4 * B) ^ 3) + 24 * B ^ 2 * (((1 + u) ^ 4 - 1) * B)) =
        24 * B ^ 3 * ((1 + u) ^ 4 * ((1 + u) ^ 8 - 1)) := by
      unfold tol3; ring
    have : 0 ≤ 24 * B ^ 3 * ((1 + u) ^ 4 * ((1 + u) ^ 8 - 1)) := mul_nonneg (by positivity) (mul_nonneg (by linarith) (by linarith))
    linarith
  obtain ⟨t1, t2⟩ := C129_tetrahedron hu ha hbd
  exact ⟨fun hi => t1 (hi.move hE hη hmove), fun ho => t2 (ho.move hE hη hmove)⟩

open SM.Linter SM.Topology in
/-- **C129 (overlaps in 3-D).** `do_any_overlap` with every operation rounded, on a mesh of tetrahedra with coordinates up to `B`: a pair of different cells that
share a vertex is reported if the exact centroid of the first is inside the second by more than `24 ((1 + u)^38 - 1) B^3` (six-fold volume), and no pair is
reported if the exact centroid of the first is outside the second by more than that. -/
theorem C129_overlap3 (hu : 0 ≤ u) (ha : Accurate rnd u) {srt : List (ℕ × ℕ) → List (ℕ × ℕ)} (hsrt : IsArgsort srt) {p : List (Fin 3 → K)} {B : K}
    (hp : ∀ y ∈ p, ∀ i, |y i| ≤ B) {ents : List (List ℕ)} (hw : ∀ r ∈ ents, r.length = 4) (hocc : ∀ v, v < p.length ↔ ∃ r ∈ ents, v ∈ r) :
    ∃ out, doAnyOverlap (inside3 rnd) (centroid rnd · 3) srt p ents 3 = .ok out ∧
      ∀ (i j : ℕ) (ri rj : List ℕ) (a b c d a' b' c' d' : Fin 3 → K), ents[i]? = some ri → ents[j]? = some rj →
        ri.map (fun k => p[k]?) = [some a, some b, some c, some d] → rj.map (fun k => p[k]?) = [some a', some b', some c', some d'] →
        (i ≠ j → (∃ v, v ∈ ri ∧ v ∈ rj) → Inside (tol3 u B) (mid a b c d) a' b' c' d' → (i, j) ∈ out) ∧
        (Outside (tol3 u B) (mid a b c d) a' b' c' d' → (i, j) ∉ out) := by
  obtain ⟨out, hrun, hout⟩ := C49_overlap (inside3 rnd) (centroid rnd · 3) hsrt (p := p) (dim := 3) hw hocc
  refine ⟨out, hrun, ?_⟩
  intro i j ri rj a b c d a' b' c' d' hri hrj hi hj
  have mem : ∀ (r : List ℕ) (l : List (Fin 3 → K)), r.map (fun k => p[k]?) = l.map some → ∀ y ∈ l, ∀ i, |y i| ≤ B := by
    intro r l hr y hy
    have : some y ∈ r.map fun k => p[k]? := by rw [hr]; exact List.mem_map_of_mem hy
    obtain ⟨k, -, hk⟩ := List.mem_map.1 this
    exact hp y (List.mem_of_getElem? hk)
  obtain ⟨t1, t2⟩ := pair_test hu ha (mem ri [a, b, c, d] hi) (mem rj [a', b', c', d'] hj)
  refine ⟨fun hne hs hin => (hout i j).2 ⟨hne, ri, rj, [a, b, c, d], [a', b', c', d'], hri, hrj, hs, hi, hj, t1 hin⟩, fun ho hmem => ?_⟩
  obtain ⟨-, ri', rj', vi, vj, q1, q2, -, q3, q4, q5⟩ := (hout i j).1 hmem
  rw [hri] at q1; rw [hrj] at q2; cases q1; cases q2
  rw [hi] at q3; rw [hj] at q4
  have e1 : vi = [a, b, c, d] := (List.map_injective_iff.2 (Option.some_injective _)) q3.symm
  have e2 : vj = [a', b', c', d'] := (List.map_injective_iff.2 (Option.some_injective _)) q4.symm
  subst e1 e2
  rw [t2 ho] at q5
  cases q5

/-! ### Triangles -/

/-- Error of a numerator or of the denominator. -/
theorem cross2_near (hu : 0 ≤ u) (ha : Accurate rnd u) {D p q r s : K} (hp : |p| ≤ D) (hq : |q| ≤ D) (hr : |r| ≤ D) (hs : |s| ≤ D) :
    Near u 4 (2 * D ^ 2) (cross2 rnd p q r s) (p * q + r * s) := by
  have e := fun {x y : K} (hx : |x| ≤ D) (hy : |y| ≤ D) => ((((Near.exact (u := u) hx).rnd hu ha).mul hu ((Near.exact hy).rnd hu ha)).rnd hu ha)
  have := ((e hp hq).add (e hr hs)).rnd hu ha
  rw [show D * D + D * D = 2 * D ^ 2 by ring] at this
  exact this

theorem four_u_le (hu : 0 ≤ u) : 4 * u ≤ (1 + u) ^ 4 - 1 := by
  have : (1 + u) ^ 4 - 1 - 4 * u = 6 * u ^ 2 + 4 * u ^ 3 + u ^ 4 := by ring
  have : 0 ≤ 6 * u ^ 2 + 4 * u ^ 3 + u ^ 4 := by positivity
  linarith

/-- The rounded quotient. -/
theorem quot_error (hu : 0 ≤ u) (ha : Accurate rnd u) {g q D n n' d d' : K} (hg : g = (1 + u) ^ 4 - 1) (hn : Near u 4 (2 * D ^ 2) n' n) (hd : Near u 4 (2 * D ^ 2) d' d)
    (hd0 : d ≠ 0) (hq : 2 * D ^ 2 ≤ q * |d|) (hsm : 16 * g * q ^ 2 ≤ 1) : d' ≠ 0 ∧ 1 ≤ q ∧ |n / d| ≤ q ∧ |rnd (n' / d') - n / d| ≤ 5 * g * q ^ 2 := by
  have hdp : 0 < |d| := abs_pos.2 hd0
  have hug : 4 * u ≤ g := hg ▸ four_u_le hu
  have hg0 : 0 ≤ g := by linarith
  have hq1 : 1 ≤ q := by
    have := hd.1.trans hq
    by_contra hc
    push Not at hc
    nlinarith
  have hgq : g * q ≤ 1 / 16 := by nlinarith [mul_nonneg hg0 (by linarith : (0:K) ≤ q)]
  have hn2 := hn.2
  have hd2 := hd.2
  rw [← hg] at hn2 hd2
  have hn3 : |n' - n| ≤ g * q * |d| := hn2.trans (by rw [mul_assoc]; exact mul_le_mul_of_nonneg_left hq hg0)
  have hd3 : |d' - d| ≤ g * q * |d| := hd2.trans (by rw [mul_assoc]; exact mul_le_mul_of_nonneg_left hq hg0)
  have hnq : |n / d| ≤ q := by
    rw [abs_div, div_le_iff₀ hdp]
    exact hn.1.trans hq
  have hd' : |d| / 2 ≤ |d'| := by
    have h1 : |d| ≤ |d'| + |d' - d| := by
      have := abs_sub_abs_le_abs_sub d d'
      rw [abs_sub_comm] at this
      linarith
    nlinarith
  have hd'0 : 0 < |d'| := by linarith
  refine ⟨abs_pos.1 hd'0, hq1, hnq, ?_⟩
  have key : |n' / d' - n / d| ≤ 4 * g * q ^ 2 := by
    have e : n' / d' - n / d = ((n' - n) - n / d * (d' - d)) / d' := by
      have : d' ≠ 0 := abs_pos.1 hd'0
      field_simp
      ring
    rw [e, abs_div, div_le_iff₀ hd'0]
    have h1 : |(n' - n) - n / d * (d' - d)| ≤ |n' - n| + |n / d| * |d' - d| := by
      have := abs_sub (n' - n) (n / d * (d' - d))
      rwa [abs_mul] at this
    have h2 : |n / d| * |d' - d| ≤ q * (g * q * |d|) := mul_le_mul hnq hd3 (abs_nonneg _) (by linarith)
    have h3 : g * q * |d| ≤ q * (g * q * |d|) := le_mul_of_one_le_left (by positivity) hq1
    have h4 : 4 * g * q ^ 2 * (|d| / 2) ≤ 4 * g * q ^ 2 * |d'| := mul_le_mul_of_nonneg_left hd' (by positivity)
    have h5 : 4 * g * q ^ 2 * (|d| / 2) = q * (g * q * |d|) + q * (g * q * |d|) := by ring
    linarith
  have h1 := ha (n' / d')
  have h2 : |n' / d'| ≤ q + 4 * g * q ^ 2 := by
    have := abs_add_le (n' / d' - n / d) (n / d)
    rw [sub_add_cancel] at this
    linarith
  have h3 : u * |n' / d'| ≤ g / 4 * (q + 4 * g * q ^ 2) := mul_le_mul (by linarith) h2 (abs_nonneg _) (by linarith)
  have h4 : g / 4 * (q + 4 * g * q ^ 2) ≤ g * q ^ 2 := by
    have : q + 4 * g * q ^ 2 ≤ 4 * q ^ 2 := by nlinarith
    nlinarith
  have h5 := abs_sub_le (rnd (n' / d')) (n' / d') (n / d)
  linarith

/-- The barycentric weights of a point. -/
def Weights (x a b c : Fin 2 → K) (w0 w1 w2 : K) : Prop := w0 + w1 + w2 = 1 ∧ ∀ i, x i = w0 * a i + w1 * b i + w2 * c i

/-- **C129 (triangles).** `vertex_in_entity2` with every operation rounded. `D` bounds the distances of the coordinates to the third vertex, `q` is the ratio of `2 D^2`
to twice the area. If all the weights of the point are above `16 ((1 + u)^4 - 1) q^2` the answer is True; if one of them is below the negative of that, False. The
position of the triangle does not matter. -/
theorem C129_triangle (hu : 0 ≤ u) (ha : Accurate rnd u) {D q τ w0 w1 w2 : K} {x a b c : Fin 2 → K} (hD : ∀ y ∈ [x, a, b], ∀ i, |y i - c i| ≤ D) (ha0 : vol2 a b c ≠ 0)
    (hq : 2 * D ^ 2 ≤ q * |2 * vol2 a b c|) (hw : Weights x a b c w0 w1 w2) (hτ : τ = 16 * ((1 + u) ^ 4 - 1) * q ^ 2) (hsm : τ ≤ 1) :
    ((τ < w0 ∧ τ < w1 ∧ τ < w2) → vertexInEntity2 rnd x a b c = true) ∧ ((w0 < -τ ∨ w1 < -τ ∨ w2 < -τ) → vertexInEntity2 rnd x a b c = false) := by
  obtain ⟨hw1, hwx⟩ := hw
  have hx := hD x (by simp)
  have hA := hD a (by simp)
  have hB := hD b (by simp)
  have hB' : ∀ i, |c i - b i| ≤ D := fun i => by rw [abs_sub_comm]; exact hB i
  have hA' : ∀ i, |c i - a i| ≤ D := fun i => by rw [abs_sub_comm]; exact hA i
  have hw2 : w2 = 1 - w0 - w1 := by linarith
  have den_eq : (b 1 - c 1) * (a 0 - c 0) + (c 0 - b 0) * (a 1 - c 1) = 2 * vol2 a b c := by simp only [vol2]; ring
  have n0_eq : (b 1 - c 1) * (x 0 - c 0) + (c 0 - b 0) * (x 1 - c 1) = w0 * (2 * vol2 a b c) := by rw [hwx 0, hwx 1, hw2]; simp only [vol2]; ring
  have n1_eq : (c 1 - a 1) * (x 0 - c 0) + (a 0 - c 0) * (x 1 - c 1) = w1 * (2 * vol2 a b c) := by rw [hwx 0, hwx 1, hw2]; simp only [vol2]; ring
  have nd := cross2_near (rnd := rnd) hu ha (hB 1) (hA 0) (hB' 0) (hA 1)
  have nn0 := cross2_near (rnd := rnd) hu ha (hB 1) (hx 0) (hB' 0) (hx 1)
  have nn1 := cross2_near (rnd := rnd) hu ha (hA' 1) (hx 0) (hA 0) (hx 1)
  rw [den_eq] at nd; rw [n0_eq] at nn0; rw [n1_eq] at nn1
  have hd0 : 2 * vol2 a b c ≠ 0 := mul_ne_zero two_ne_zero ha0
  obtain ⟨g, hg⟩ : ∃ g, g = (1 + u) ^ 4 - 1 := ⟨_, rfl⟩
  rw [← hg] at hτ
  have hug : 4 * u ≤ g := hg ▸ four_u_le hu
  have hg0 : 0 ≤ g := by linarith
  obtain ⟨hd', hq1, q0, e0⟩ := quot_error hu ha hg nn0 nd hd0 hq (hτ ▸ hsm)
  obtain ⟨-, -, q1, e1⟩ := quot_error hu ha hg nn1 nd hd0 hq (hτ ▸ hsm)
  rw [mul_div_cancel_right₀ _ hd0] at q0 e0 q1 e1
  simp only [vertexInEntity2, if_neg hd']
  generalize rnd (cross2 rnd (b 1 - c 1) (x 0 - c 0) (c 0 - b 0) (x 1 - c 1) / cross2 rnd (b 1 - c 1) (a 0 - c 0) (c 0 - b 0) (a 1 - c 1)) = A at e0 ⊢
  generalize rnd (cross2 rnd (c 1 - a 1) (x 0 - c 0) (a 0 - c 0) (x 1 - c 1) / cross2 rnd (b 1 - c 1) (a 0 - c 0) (c 0 - b 0) (a 1 - c 1)) = B at e1 ⊢
  have hqq : q ≤ q ^ 2 := by nlinarith
  have hQ1 : 1 ≤ q ^ 2 := hq1.trans hqq
  have hgq : g * q ^ 2 ≤ 1 / 16 := by linarith [hτ]
  have hgq0 : 0 ≤ g * q ^ 2 := by positivity
  obtain ⟨a1, a2⟩ := abs_le.1 e0
  obtain ⟨b1, b2⟩ := abs_le.1 e1
  obtain ⟨a3, a4⟩ := abs_le.1 q0
  obtain ⟨b3, b4⟩ := abs_le.1 q1
  have s1 : |rnd (1 - A) - (1 - A)| ≤ g / 4 * (3 * q ^ 2) := by
    refine (ha _).trans (mul_le_mul (by linarith) ?_ (abs_nonneg _) (by linarith))
    exact abs_le.2 ⟨by linarith, by linarith⟩
  have s2 : |rnd (rnd (1 - A) - B) - (rnd (1 - A) - B)| ≤ g / 4 * (6 * q ^ 2) := by
    refine (ha _).trans (mul_le_mul (by linarith) ?_ (abs_nonneg _) (by linarith))
    obtain ⟨t1, t2⟩ := abs_le.1 s1
    exact abs_le.2 ⟨by linarith, by linarith⟩
  generalize rnd (rnd (1 - A) - B) = C at s2 ⊢
  obtain ⟨t1, t2⟩ := abs_le.1 s1
  obtain ⟨t3, t4⟩ := abs_le.1 s2
  have c1 : w2 - τ ≤ C := by linarith
  have c2 : C ≤ w2 + τ := by linarith
  have a5 : w0 - τ ≤ A := by linarith
  have a6 : A ≤ w0 + τ := by linarith
  have b5 : w1 - τ ≤ B := by linarith
  have b6 : B ≤ w1 + τ := by linarith
  refine ⟨fun ⟨h0, h1, h2⟩ => ?_, fun h => ?_⟩
  · simp only [Bool.and_eq_true, decide_eq_true_eq]
    refine ⟨⟨⟨⟨⟨?_, ?_⟩, ?_⟩, ?_⟩, ?_⟩, ?_⟩ <;> linarith
  · rcases h with h | h | h
    · rw [show decide (0 ≤ A) = false by simp; linarith]; simp
    · rw [show decide (0 ≤ B) = false by simp; linarith]; simp
    · rw [show decide (0 ≤ C) = false by simp; linarith]; simp

/-- Weights of a point moved by at most `δ`. -/
theorem Weights.move {D q δ w0 w1 w2 : K} {x x' a b c : Fin 2 → K} (hD : ∀ y ∈ [a, b], ∀ i, |y i - c i| ≤ D) (hD0 : 0 < D) (ha0 : vol2 a b c ≠ 0)
    (hq : 2 * D ^ 2 ≤ q * |2 * vol2 a b c|) (hw : Weights x a b c w0 w1 w2) (hδ : ∀ i, |x' i - x i| ≤ δ) :
    ∃ v0 v1 v2, Weights x' a b c v0 v1 v2 ∧ |v0 - w0| ≤ 2 * q * δ / D ∧ |v1 - w1| ≤ 2 * q * δ / D ∧ |v2 - w2| ≤ 2 * q * δ / D := by
  obtain ⟨hw1, hwx⟩ := hw
  have hd0 : 2 * vol2 a b c ≠ 0 := mul_ne_zero two_ne_zero ha0
  have hdp := abs_pos.2 hd0
  have hδ0 : 0 ≤ δ := (abs_nonneg _).trans (hδ 0)
  have bound : ∀ r s : K, |r| ≤ D → |s| ≤ D → |(r * (x' 0 - x 0) + s * (x' 1 - x 1)) / (2 * vol2 a b c)| ≤ q * δ / D := by
    intro r s hr hs
    rw [abs_div, div_le_div_iff₀ hdp hD0]
    have h1 : |r * (x' 0 - x 0) + s * (x' 1 - x 1)| ≤ D * δ + D * δ := by
      refine (abs_add_le _ _).trans ?_
      rw [abs_mul, abs_mul]
      exact add_le_add (mul_le_mul hr (hδ 0) (abs_nonneg _) hD0.le) (mul_le_mul hs (hδ 1) (abs_nonneg _) hD0.le)
    have h2 : |r * (x' 0 - x 0) + s * (x' 1 - x 1)| * D ≤ (D * δ + D * δ) * D := mul_le_mul_of_nonneg_right h1 hD0.le
    have h3 : 2 * D ^ 2 * δ ≤ q * |2 * vol2 a b c| * δ := mul_le_mul_of_nonneg_right hq hδ0
    linarith
  have hA := hD a (by simp)
  have hB := hD b (by simp)
  have f0 := bound (b 1 - c 1) (c 0 - b 0) (hB 1) (by rw [abs_sub_comm]; exact hB 0)
  have f1 := bound (c 1 - a 1) (a 0 - c 0) (by rw [abs_sub_comm]; exact hA 1) (hA 0)
  have hη : 2 * q * δ / D = q * δ / D + q * δ / D := by ring
  have hn : 0 ≤ q * δ / D := (abs_nonneg _).trans f0
  refine ⟨w0 + ((b 1 - c 1) * (x' 0 - x 0) + (c 0 - b 0) * (x' 1 - x 1)) / (2 * vol2 a b c), w1 + ((c 1 - a 1) * (x' 0 - x 0) + (a 0 - c 0) * (x' 1 - x 1)) / (2 * vol2 a b c),
    w2 - ((b 1 - c 1) * (x' 0 - x 0) + (c 0 - b 0) * (x' 1 - x 1)) / (2 * vol2 a b c) - ((c 1 - a 1) * (x' 0 - x 0) + (a 0 - c 0) * (x' 1 - x 1)) / (2 * vol2 a b c),
    ⟨by linarith, fun i => ?_⟩, ?_, ?_, ?_⟩
  · have e : ∀ t : K, t = t / (2 * vol2 a b c) * (2 * vol2 a b c) := fun t => (div_mul_cancel₀ t hd0).symm
    have h0 := hwx 0
    have h1 := hwx 1
    have v : 2 * vol2 a b c = (b 0 - a 0) * (c 1 - a 1) - (b 1 - a 1) * (c 0 - a 0) := by simp only [vol2]; ring
    have key : x' i - x i = ((b 1 - c 1) * (x' 0 - x 0) + (c 0 - b 0) * (x' 1 - x 1)) / (2 * vol2 a b c) * (a i - c i) +
        ((c 1 - a 1) * (x' 0 - x 0) + (a 0 - c 0) * (x' 1 - x 1)) / (2 * vol2 a b c) * (b i - c i) := by
      rw [div_mul_eq_mul_div, div_mul_eq_mul_div, ← add_div, eq_div_iff hd0, v]
      match i with
      | 0 => ring
      | 1 => ring
    have hi := hwx i
    linarith
  · rw [add_sub_cancel_left]; linarith
  · rw [add_sub_cancel_left]; linarith
  · obtain ⟨g1, g2⟩ := abs_le.1 f0
    obtain ⟨g3, g4⟩ := abs_le.1 f1
    exact abs_le.2 ⟨by linarith, by linarith⟩

/-- The centroid of a triangle. -/
def mid2 (a b c : Fin 2 → K) : Fin 2 → K := fun i => (a i + b i + c i) / 3

theorem centroid2_near (hu : 0 ≤ u) (ha : Accurate rnd u) {B : K} {a b c : Fin 2 → K} (h : ∀ y ∈ [a, b, c], ∀ i, |y i| ≤ B) (i : Fin 2) :
    |centroid rnd [a, b, c] 2 i - mid2 a b c i| ≤ ((1 + u) ^ 3 - 1) * B := by
  have e := fun y hy => Near.exact (u := u) (h y hy i)
  have s1 := ((e a (by simp)).add (e b (by simp))).rnd hu ha
  have s2 := (s1.add ((e c (by simp)).weaken hu (Nat.zero_le 1) le_rfl)).rnd hu ha
  have s3 := (s2.div (c := ((2 : ℕ) : K) + 1) (by norm_num)).rnd hu ha
  have h2 := s3.2
  rw [show (B + B + B) / (((2 : ℕ) : K) + 1) = B by push_cast; ring] at h2
  simpa [centroid, mid2, show ((2 : K) + 1) = 3 by norm_num] using h2

/-- Margin in barycentric weights: rounding of the test and of the centroid. -/
def tol2 (u q D B : K) : K := 16 * ((1 + u) ^ 4 - 1) * q ^ 2 + 2 * q * (((1 + u) ^ 3 - 1) * B) / D

/-- Centroid and test of one pair. -/
theorem pair_test2 (hu : 0 ≤ u) (ha : Accurate rnd u) {B D q w0 w1 w2 : K} {a b c a' b' c' : Fin 2 → K} (h : ∀ y ∈ [a, b, c], ∀ i, |y i| ≤ B)
    (hD : ∀ y ∈ [a', b'], ∀ i, |y i - c' i| ≤ D) (hm : ∀ i, |mid2 a b c i - c' i| + ((1 + u) ^ 3 - 1) * B ≤ D) (hD0 : 0 < D) (ha0 : vol2 a' b' c' ≠ 0)
    (hq : 2 * D ^ 2 ≤ q * |2 * vol2 a' b' c'|) (hsm : 16 * ((1 + u) ^ 4 - 1) * q ^ 2 ≤ 1) (hw : Weights (mid2 a b c) a' b' c' w0 w1 w2) :
    ((tol2 u q D B < w0 ∧ tol2 u q D B < w1 ∧ tol2 u q D B < w2) → inside2 rnd (centroid rnd [a, b, c] 2) [a', b', c'] = true) ∧
    ((w0 < -tol2 u q D B ∨ w1 < -tol2 u q D B ∨ w2 < -tol2 u q D B) → inside2 rnd (centroid rnd [a, b, c] 2) [a', b', c'] = false) := by
  have hc := centroid2_near hu ha h
  obtain ⟨v0, v1, v2, hv, f0, f1, f2⟩ := hw.move hD hD0 ha0 hq hc
  have hD' : ∀ y ∈ [centroid rnd [a, b, c] 2, a', b'], ∀ i, |y i - c' i| ≤ D := by
    intro y hy i
    rcases List.mem_cons.1 hy with rfl | hy
    · have := abs_sub_le (centroid rnd [a, b, c] 2 i) (mid2 a b c i) (c' i)
      have := hm i
      have := hc i
      linarith
    · exact hD y hy i
  obtain ⟨t1, t2⟩ := C129_triangle hu ha hD' ha0 hq hv rfl hsm
  obtain ⟨g1, g2⟩ := abs_le.1 f0
  obtain ⟨g3, g4⟩ := abs_le.1 f1
  obtain ⟨g5, g6⟩ := abs_le.1 f2
  simp only [tol2]
  refine ⟨fun ⟨h0, h1, h2⟩ => t1 ⟨by linarith, by linarith, by linarith⟩, fun h => t2 ?_⟩
  rcases h with h | h | h
  · exact .inl (by linarith)
  · exact .inr (.inl (by linarith))
  · exact .inr (.inr (by linarith))

open SM.Linter SM.Topology in
/-- **C129 (overlaps in 2-D).** `do_any_overlap` with every operation rounded, on a mesh of triangles with coordinates up to `B`: a pair of different cells that
share a vertex is reported if the barycentric weights of the exact centroid of the first in the second are all above the margin, and no pair is reported if one of them
is below the negative of the margin. The position enters only through the rounding of the centroid. -/
theorem C129_overlap2 (hu : 0 ≤ u) (ha : Accurate rnd u) {srt : List (ℕ × ℕ) → List (ℕ × ℕ)} (hsrt : IsArgsort srt) {p : List (Fin 2 → K)} {B : K}
    (hp : ∀ y ∈ p, ∀ i, |y i| ≤ B) {ents : List (List ℕ)} (hw : ∀ r ∈ ents, r.length = 3) (hocc : ∀ v, v < p.length ↔ ∃ r ∈ ents, v ∈ r) :
    ∃ out, doAnyOverlap (inside2 rnd) (centroid rnd · 2) srt p ents 2 = .ok out ∧
      ∀ (i j : ℕ) (ri rj : List ℕ) (a b c a' b' c' : Fin 2 → K) (D q w0 w1 w2 : K), ents[i]? = some ri → ents[j]? = some rj →
        ri.map (fun k => p[k]?) = [some a, some b, some c] → rj.map (fun k => p[k]?) = [some a', some b', some c'] →
        (∀ y ∈ [a', b'], ∀ i, |y i - c' i| ≤ D) → (∀ i, |mid2 a b c i - c' i| + ((1 + u) ^ 3 - 1) * B ≤ D) → 0 < D → vol2 a' b' c' ≠ 0 →
        2 * D ^ 2 ≤ q * |2 * vol2 a' b' c'| → 16 * ((1 + u) ^ 4 - 1) * q ^ 2 ≤ 1 → Weights (mid2 a b c) a' b' c' w0 w1 w2 →
        (i ≠ j → (∃ v, v ∈ ri ∧ v ∈ rj) → (tol2 u q D B < w0 ∧ tol2 u q D B < w1 ∧ tol2 u q D B < w2) → (i, j) ∈ out) ∧
        ((w0 < -tol2 u q D B ∨ w1 < -tol2 u q D B ∨ w2 < -tol2 u q D B) → (i, j) ∉ out) := by
  obtain ⟨out, hrun, hout⟩ := C49_overlap (inside2 rnd) (centroid rnd · 2) hsrt (p := p) (dim := 2) hw hocc
  refine ⟨out, hrun, ?_⟩
  intro i j ri rj a b c a' b' c' D q w0 w1 w2 hri hrj hi hj hD hm hD0 ha0 hq hsm hwt
  have mem : ∀ (r : List ℕ) (l : List (Fin 2 → K)), r.map (fun k => p[k]?) = l.map some → ∀ y ∈ l, ∀ i, |y i| ≤ B := by
    intro r l hr y hy
    have : some y ∈ r.map fun k => p[k]? := by rw [hr]; exact List.mem_map_of_mem hy
    obtain ⟨k, -, hk⟩ := List.mem_map.1 this
    exact hp y (List.mem_of_getElem? hk)
  obtain ⟨t1, t2⟩ := pair_test2 hu ha (mem ri [a, b, c] hi) hD hm hD0 ha0 hq hsm hwt
  refine ⟨fun hne hs hin => (hout i j).2 ⟨hne, ri, rj, [a, b, c], [a', b', c'], hri, hrj, hs, hi, hj, t1 hin⟩, fun ho hmem => ?_⟩
  obtain ⟨-, ri', rj', vi, vj, q1, q2, -, q3, q4, q5⟩ := (hout i j).1 hmem
  rw [hri] at q1; rw [hrj] at q2; cases q1; cases q2
  rw [hi] at q3; rw [hj] at q4
  have e1 : vi = [a, b, c] := (List.map_injective_iff.2 (Option.some_injective _)) q3.symm
  have e2 : vj = [a', b', c'] := (List.map_injective_iff.2 (Option.some_injective _)) q4.symm
  subst e1 e2
  rw [t2 ho] at q5
  cases q5

/-! ### Far from the origin -/

/-- Two tetrahedra with a common face, on its two sides, at about (74 km, 147 km, 107 km) from the origin; edges of one to three metres. The coordinates are the
doubles nearest to 73745.3, 146820.6, 106648.0 etc. -/
def farP : List (Fin 3 → ℚ) := [![5067738427739341 / 68719476736, 5044717403032781 / 34359738368, 106648], ![2533862341921997 / 34359738368, 146821, 106646],
  ![2533907009581875 / 34359738368, 146821, 3664383633575117 / 34359738368], ![147493 / 2, 2522343239634125 / 17179869184, 7328739779359539 / 68719476736],
  ![2533924189451059 / 34359738368, 293639 / 2, 7328705419621171 / 68719476736]]

/-- The same mesh moved to the origin. -/
def nearP : List (Fin 3 → ℚ) := farP.map fun x => ![x 0 - 73745, x 1 - 146819, x 2 - 106646]

/-- The connectivity of both. -/
def farT : List (List ℕ) := [[0, 1, 2, 3], [1, 2, 3, 4]]

open SM.Linter

/-- Sort the incidences by vertex. -/
def sortInc : List (ℕ × ℕ) → List (ℕ × ℕ) := fun l => l.insertionSort fun a b => a.1 ≤ b.1

/-- **C129 (far from the origin).** Two tetrahedra on the two sides of a common face, of metre size, 74 to 147 km from the origin. In double precision the centroid of
the second is reported to lie inside the first, and `linter` deletes one of the two good cells; in exact arithmetic, or with the same mesh moved to the origin in double
precision, nothing is reported and both cells are kept. -/
theorem C129_far_deletes :
    (∀ x ∈ farP, ∀ i, SM.Fl.binary64 (x i) = x i) ∧
    doAnyOverlap (inside3 SM.Fl.binary64) (centroid SM.Fl.binary64 · 3) sortInc farP farT 3 = .ok [(1, 0), (1, 0), (1, 0)] ∧
    doAnyOverlap (inside3 id) (centroid id · 3) sortInc farP farT 3 = .ok [] ∧
    doAnyOverlap (inside3 SM.Fl.binary64) (centroid SM.Fl.binary64 · 3) sortInc nearP farT 3 = .ok [] ∧
    (linter (inside3 SM.Fl.binary64) (centroid SM.Fl.binary64 · 3) (fun vs => |rowVol3 vs|) rowVol3 (fun q => [q 0, q 1, q 2]) (fun q => [q 0, q 1, q 2])
      (fun r => r) sortInc 3 farP farT 3 (1 / 100)).map (fun m => (m.1.length, m.2.length)) = .ok (4, 1) ∧
    (linter (inside3 SM.Fl.binary64) (centroid SM.Fl.binary64 · 3) (fun vs => |rowVol3 vs|) rowVol3 (fun q => [q 0, q 1, q 2]) (fun q => [q 0, q 1, q 2])
      (fun r => r) sortInc 3 nearP farT 3 (1 / 100)).map (fun m => (m.1.length, m.2.length)) = .ok (5, 2) := by
  refine ⟨by decide +kernel, by decide +kernel, by decide +kernel, by decide +kernel, by decide +kernel, by decide +kernel⟩

/-- The volumes of the two cells, and their signs seen from the common face: neither is degenerate and they do not overlap. -/
theorem C129_far_good : ∃ a b c d e, farP = [a, b, c, d, e] ∧ vol3 b c d a < -1 / 4 ∧ 1 / 4 < vol3 b c d e ∧
    (∀ x ∈ farP, ∀ y ∈ farP, ∀ i, |x i - y i| ≤ 2) := by
  refine ⟨_, _, _, _, _, rfl, ?_, ?_, ?_⟩
  · decide +kernel
  · decide +kernel
  · decide +kernel

/-! ### The margins are not vacuous -/

theorem binary64_accurate : Accurate SM.Fl.binary64 (1 / 9007199254740992) := fun x => SM.Fl.binary64_error x

/-- Two tetrahedra with a common face near the origin: the centroid of the first is inside itself and outside the other by far more than the tolerance. -/
example : let a : Fin 3 → ℚ := ![0, 0, 0]; let b : Fin 3 → ℚ := ![1, 0, 0]; let c : Fin 3 → ℚ := ![0, 1, 0]; let d : Fin 3 → ℚ := ![0, 0, 1]; let e : Fin 3 → ℚ := ![1, 1, 1]
    Inside (tol3 (1 / 9007199254740992) 2) (mid a b c d) a b c d ∧ Outside (tol3 (1 / 9007199254740992) 2) (mid a b c d) b c d e := by
  unfold Inside Outside
  decide +kernel

/-- A flat triangle 10 km from the origin and its neighbour: `D = 1`, `q = 200`. -/
example : let u : ℚ := 1 / 9007199254740992; let a : Fin 2 → ℚ := ![10000, 10000]; let b : Fin 2 → ℚ := ![10001, 10000]; let c : Fin 2 → ℚ := ![10000, 10000 + 1 / 100]
    let e : Fin 2 → ℚ := ![10001, 10000 + 1 / 100]
    Weights (mid2 a b c) a b c (1 / 3) (1 / 3) (1 / 3) ∧ Weights (mid2 a b c) b e c (2 / 3) (-1 / 3) (2 / 3) ∧ 2 * (11 / 10 : ℚ) ^ 2 ≤ 300 * |2 * vol2 b e c| ∧
    16 * ((1 + u) ^ 4 - 1) * 300 ^ 2 ≤ 1 ∧ tol2 u 300 (11 / 10) 10001 < 1 / 100 ∧ (∀ i, |mid2 a b c i - c i| + ((1 + u) ^ 3 - 1) * 10001 ≤ 11 / 10) := by
  unfold Weights
  decide +kernel

end SM.InsideFl
