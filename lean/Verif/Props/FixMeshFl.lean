import Verif.Model.FixMeshFl
import Verif.Props.FixMesh
import Verif.Props.SdfFl
import Verif.Lemmas.Binary64
import Mathlib.Tactic.Linarith
import Mathlib.Tactic.Positivity
import Mathlib.Tactic.Ring
import Mathlib.Tactic.NormNum
import Mathlib.Tactic.FinCases

/-!
# C142: duplicate vertices in floating-point arithmetic
-/

namespace SM.FixMeshFl

open FixMesh SdfFl

variable {K : Type} [Field K] [LinearOrder K] [IsStrictOrderedRing K] [FloorRing K] {d : ℕ} {rnd : K → K} {u : K} {κ ρ : Type} [LinearOrder κ] [LinearOrder ρ]

/-! ### Specification -/

/-- Vertices `i` and `j` of the input are the same vertex of the output: every cell refers to it by the same number. -/
def Merged (jx : List ℕ) (i j : ℕ) : Prop := ∃ k, jx[i]? = some k ∧ jx[j]? = some k

/-- The values of the coordinates are equal, `a == b` in Python. -/
def SameValues (a b : Fin d → Num K) : Prop := ∀ k, (a k).val = (b k).val

/-! ### One coordinate -/

theorem snap_close (hu : 0 ≤ u) (ha : Accurate rnd u) {s : K} (hs : 0 < s) {a b : Num K} (h : snapNum rnd s a = snapNum rnd s b) :
    |a.val - b.val| ≤ (1 + u) * s + u * (2 + u) * (|a.val| + |b.val|) := by
  have hv : rnd (npRound (rnd (a.val / s)) * s) = rnd (npRound (rnd (b.val / s)) * s) := congrArg Num.val h
  generalize hn : (npRound (rnd (a.val / s)) : K) = n at hv
  generalize hm : (npRound (rnd (b.val / s)) : K) = m at hv
  have bound : ∀ (x : K) (n : K), (npRound (rnd (x / s)) : K) = n → |n * s - x| ≤ s / 2 + u * |x| ∧ |n| * s ≤ s / 2 + (1 + u) * |x| := by
    intro x n hn
    have h1 := npRound_close (rnd (x / s))
    rw [hn] at h1
    have h2 := ha (x / s)
    have h3 : |n - x / s| ≤ 1 / 2 + u * |x / s| := by
      have e : n - x / s = (n - rnd (x / s)) + (rnd (x / s) - x / s) := by ring
      rw [e]
      exact (abs_add_le _ _).trans (add_le_add h1 h2)
    have h4 : n * s - x = (n - x / s) * s := by
      rw [sub_mul, div_mul_cancel₀ _ hs.ne']
    have h5 : |x / s| * s = |x| := by
      rw [abs_div, abs_of_pos hs, div_mul_cancel₀ _ hs.ne']
    have h6 : |n * s - x| ≤ s / 2 + u * |x| := by
      rw [h4, abs_mul, abs_of_pos hs]
      refine (mul_le_mul_of_nonneg_right h3 hs.le).trans (le_of_eq ?_)
      rw [add_mul, mul_assoc, h5]
      ring
    refine ⟨h6, ?_⟩
    have h7 : |n| * s = |n * s| := by rw [abs_mul, abs_of_pos hs]
    have h8 := abs_add_le (n * s - x) x
    rw [sub_add_cancel] at h8
    rw [h7]
    linarith
  obtain ⟨a1, a2⟩ := bound _ _ hn
  obtain ⟨b1, b2⟩ := bound _ _ hm
  have e1 := ha (n * s)
  have e2 := ha (m * s)
  rw [abs_mul, abs_of_pos hs] at e1 e2
  have e3 : a.val - b.val = -(n * s - a.val) - (rnd (n * s) - n * s) + (rnd (m * s) - m * s) + (m * s - b.val) := by
    rw [hv]
    ring
  have t1 := abs_add_le (-(n * s - a.val) - (rnd (n * s) - n * s) + (rnd (m * s) - m * s)) (m * s - b.val)
  have t2 := abs_add_le (-(n * s - a.val) - (rnd (n * s) - n * s)) (rnd (m * s) - m * s)
  have t3 := abs_sub (-(n * s - a.val)) (rnd (n * s) - n * s)
  rw [abs_neg] at t3
  rw [← e3] at t1
  have f1 : u * (|n| * s) ≤ u * (s / 2 + (1 + u) * |a.val|) := mul_le_mul_of_nonneg_left a2 hu
  have f2 : u * (|m| * s) ≤ u * (s / 2 + (1 + u) * |b.val|) := mul_le_mul_of_nonneg_left b2 hu
  have f3 : u * (s / 2 + (1 + u) * |a.val|) + u * |a.val| = u * s / 2 + u * (2 + u) * |a.val| := by ring
  have f4 : u * (s / 2 + (1 + u) * |b.val|) + u * |b.val| = u * s / 2 + u * (2 + u) * |b.val| := by ring
  linarith

/-! ### The run -/

/-- The numbering of the output. -/
theorem run {enc : (Fin d → Num K) → κ} (henc : Function.Injective enc) {rk : List ℕ → ρ} (hrk : Function.Injective rk) (vol : List (Fin d → Num K) → K) (ptol : K) {p0 : Fin d → Num K}
    {ps : List (Fin d → Num K)} {t : List (List ℕ)} (ht : InRange (p0 :: ps) t) (ori : Bool) :
    ∃ p' t' jx, fixMesh rnd enc rk vol ptol (p0 :: ps) t false ori = .ok (p', t', jx) ∧ InRange p' t' ∧
      ∀ (i j : ℕ) a b, (p0 :: ps)[i]? = some a → (p0 :: ps)[j]? = some b →
        (Merged jx i j ↔ ∀ k, snapNum rnd (snapLen rnd ptol p0 ps) (a k) = snapNum rnd (snapLen rnd ptol p0 ps) (b k)) := by
  obtain ⟨p', t', jx, h, h1, -, h3, h4⟩ := C31_keep_unused (fun q => enc fun k => snapNum rnd (snapLen rnd ptol p0 ps) (q k)) hrk vol (p := p0 :: ps) (by simp) ht ori
  refine ⟨p', t', jx, h, h1, fun i j a b ha hb => ?_⟩
  have hi : i < (p0 :: ps).length := (List.getElem?_eq_some_iff.1 ha).1
  have hj : j < (p0 :: ps).length := (List.getElem?_eq_some_iff.1 hb).1
  obtain ⟨k, hk, hkl, hka⟩ := h4 i hi
  obtain ⟨l, hl, hll, hlb⟩ := h4 j hj
  rw [ha, List.getElem?_eq_getElem hkl] at hka
  rw [hb, List.getElem?_eq_getElem hll] at hlb
  simp only [Option.map_some, Option.some.injEq] at hka hlb
  constructor
  · rintro ⟨m, hm1, hm2⟩
    rw [hk] at hm1
    rw [hl] at hm2
    obtain rfl : k = m := Option.some.inj hm1
    obtain rfl : l = k := Option.some.inj hm2
    have := henc (hka.symm.trans hlb)
    exact fun c => congrFun this c
  · intro hab
    have hkey : (enc fun k => snapNum rnd (snapLen rnd ptol p0 ps) (a k)) = enc fun k => snapNum rnd (snapLen rnd ptol p0 ps) (b k) := congrArg enc (funext hab)
    have hkl' : k = l := by
      by_contra hne
      rw [List.pairwise_iff_getElem] at h3
      rcases Nat.lt_or_gt_of_ne hne with h' | h'
      · exact h3 k l hkl hll h' (hka.trans (hkey.trans hlb.symm))
      · exact h3 l k hll hkl h' (hlb.trans (hkey.symm.trans hka.symm))
    subst hkl'
    exact ⟨k, hk, hl⟩

/-! ### C142 -/

/-- **C142 (merged vertices are close).** Vertices of the input that become one vertex of the output differ by at most `(1 + u) snap + u (2 + u) (|a| + |b|)` in each coordinate. -/
theorem C142_close (hu : 0 ≤ u) (hr : Accurate rnd u) {enc : (Fin d → Num K) → κ} (henc : Function.Injective enc) {rk : List ℕ → ρ} (hrk : Function.Injective rk)
    (vol : List (Fin d → Num K) → K) (ptol : K) {p0 : Fin d → Num K} {ps : List (Fin d → Num K)} (hs : 0 < snapLen rnd ptol p0 ps) {t : List (List ℕ)} (ht : InRange (p0 :: ps) t) (ori : Bool) :
    ∃ p' t' jx, fixMesh rnd enc rk vol ptol (p0 :: ps) t false ori = .ok (p', t', jx) ∧
      ∀ (i j : ℕ) a b, (p0 :: ps)[i]? = some a → (p0 :: ps)[j]? = some b → Merged jx i j →
        ∀ k, |(a k).val - (b k).val| ≤ (1 + u) * snapLen rnd ptol p0 ps + u * (2 + u) * (|(a k).val| + |(b k).val|) := by
  obtain ⟨p', t', jx, h, -, h2⟩ := run (rnd := rnd) henc hrk vol ptol ht ori
  exact ⟨p', t', jx, h, fun i j a b ha hb hm k => snap_close hu hr hs ((h2 i j a b ha hb).1 hm k)⟩

/-- **C142 (what is merged; partial).** Vertices at the same position are merged if they have no coordinate that is 0 in one and -0 in the other. In particular this holds for vertices at the same
position without zero coordinates. -/
theorem C142_duplicates_partial {enc : (Fin d → Num K) → κ} (henc : Function.Injective enc) {rk : List ℕ → ρ} (hrk : Function.Injective rk)
    (vol : List (Fin d → Num K) → K) (ptol : K) {p0 : Fin d → Num K} {ps : List (Fin d → Num K)} (hok : ∀ q ∈ p0 :: ps, ∀ k, (q k).Ok) {t : List (List ℕ)} (ht : InRange (p0 :: ps) t) (ori : Bool) :
    ∃ p' t' jx, fixMesh rnd enc rk vol ptol (p0 :: ps) t false ori = .ok (p', t', jx) ∧
      ∀ (i j : ℕ) a b, (p0 :: ps)[i]? = some a → (p0 :: ps)[j]? = some b → SameValues a b → (Merged jx i j ↔ ∀ k, (a k).val = 0 → (a k).neg = (b k).neg) := by
  obtain ⟨p', t', jx, h, -, h2⟩ := run (rnd := rnd) henc hrk vol ptol ht ori
  refine ⟨p', t', jx, h, fun i j a b ha hb hab => (h2 i j a b ha hb).trans ⟨fun hk k _ => by
    have h7 := congrArg Num.neg (hk k)
    exact h7, fun hz k => ?_⟩⟩
  have hneg : (a k).neg = (b k).neg := by
    by_cases h0 : (a k).val = 0
    · exact hz k h0
    · have h1 := hok a (List.mem_of_getElem? ha) k h0
      have h3 := hok b (List.mem_of_getElem? hb) k (by rw [← hab k]; exact h0)
      rw [hab k] at h1
      exact Bool.eq_iff_iff.2 (h1.trans h3.symm)
  unfold snapNum
  rw [hneg, hab k]

/-- **C142 (signed zeros).** Vertices with a coordinate of opposite signs are never merged, however close they are. -/
theorem C142_signs {enc : (Fin d → Num K) → κ} (henc : Function.Injective enc) {rk : List ℕ → ρ} (hrk : Function.Injective rk)
    (vol : List (Fin d → Num K) → K) (ptol : K) {p0 : Fin d → Num K} {ps : List (Fin d → Num K)} {t : List (List ℕ)} (ht : InRange (p0 :: ps) t) (ori : Bool) :
    ∃ p' t' jx, fixMesh rnd enc rk vol ptol (p0 :: ps) t false ori = .ok (p', t', jx) ∧
      ∀ (i j : ℕ) a b, (p0 :: ps)[i]? = some a → (p0 :: ps)[j]? = some b → (∃ k, (a k).neg ≠ (b k).neg) → ¬ Merged jx i j := by
  obtain ⟨p', t', jx, h, -, h2⟩ := run (rnd := rnd) henc hrk vol ptol ht ori
  exact ⟨p', t', jx, h, fun i j a b ha hb ⟨k, hk⟩ hm => hk (by
    have h7 := congrArg Num.neg ((h2 i j a b ha hb).1 hm k)
    exact h7)⟩

/-! ### Duplicates that stay -/

/-- A double with the sign bit of its value. -/
def plain (x : ℚ) : Num ℚ := ⟨decide (x < 0), x⟩

def negZero : Num ℚ := ⟨true, 0⟩

/-- A square of two triangles that share the side from (0, 0) to (0, 1), each with its own copies of the two vertices. -/
def square : List (Fin 2 → Num ℚ) :=
  [![plain 0, plain 0], ![plain 1, plain 0], ![plain 0, plain 1], ![negZero, plain 0], ![negZero, plain 1], ![plain (-1), plain 1]]

def squareT : List (List ℕ) := [[0, 1, 2], [3, 4, 5]]

/-- The snapping length of the square. -/
theorem square_snap : 0 < snapLen Fl.binary64 (1 / 5000000000000) ![plain 0, plain 0] square.tail := by decide +kernel

/-- **C142 is false of the code.** In double precision `fix_mesh` with its default tolerance leaves two copies of the vertices of a common side, although their coordinates are equal numbers: one copy has
the coordinate 0.0 and the other -0.0. -/
theorem C142_duplicates_kept {enc : (Fin 2 → Num ℚ) → κ} (henc : Function.Injective enc) {rk : List ℕ → ρ} (hrk : Function.Injective rk) (vol : List (Fin 2 → Num ℚ) → ℚ) (ori : Bool) :
    (∀ q ∈ square, ∀ k, (q k).Ok ∧ Fl.binary64 (q k).val = (q k).val) ∧ InRange square squareT ∧
      ∃ p' t' jx a b, fixMesh Fl.binary64 enc rk vol (1 / 5000000000000) square squareT false ori = .ok (p', t', jx) ∧
        square[0]? = some a ∧ square[3]? = some b ∧ SameValues a b ∧ ¬ Merged jx 0 3 := by
  have hr : InRange square squareT := by
    unfold InRange squareT square
    decide
  refine ⟨by unfold Num.Ok; decide +kernel, hr, ?_⟩
  obtain ⟨p', t', jx, h, h2⟩ := C142_signs (rnd := Fl.binary64) henc hrk vol (1 / 5000000000000) (p0 := ![plain 0, plain 0]) (ps := square.tail) hr ori
  refine ⟨p', t', jx, ![plain 0, plain 0], ![negZero, plain 0], h, rfl, rfl, ?_, h2 0 3 _ _ rfl rfl ⟨0, by decide⟩⟩
  intro k
  fin_cases k <;> rfl

/-- The hypotheses of `C142_close` and `C142_duplicates_partial` are met in double precision by that mesh. -/
example : Accurate Fl.binary64 (1 / 9007199254740992) ∧ (0 < snapLen Fl.binary64 (1 / 5000000000000) ![plain 0, plain 0] square.tail) ∧ InRange square squareT ∧
    (∀ q ∈ square, ∀ k, (q k).Ok) ∧ Function.Injective (fun q : Fin 2 → Num ℚ => q) :=
  ⟨fun q => Fl.binary64_error q, square_snap, by unfold InRange squareT square; decide, by unfold Num.Ok; decide +kernel, fun _ _ h => h⟩

end SM.FixMeshFl
