import Verif.Props.Domain

/-!
# C103: the order and nesting of set operations
-/

namespace SM.Domain

open Sdf

/-- Two domain objects that no function of the package can tell apart, except by the order of their corners. -/
structure Same {d : ℕ} (o o' : Obj d) : Prop where
  eval : ∀ x, o.eval x = o'.eval x
  bbox : o.bbox = o'.bbox
  corners : Option.Rel List.Perm o.corners o'.corners

variable {d : ℕ}

theorem foldl_op_perm {op : ℝ → ℝ → ℝ} (hc : ∀ a b, op a b = op b a) (ha : ∀ a b c, op (op a b) c = op a (op b c)) {x x' : ℝ} {l l' : List ℝ}
    (h : (x :: l).Perm (x' :: l')) (hi : ∀ a, op a a = a) : l.foldl op x = l'.foldl op x' := by
  have rc : RightCommutative op := ⟨fun a b c => by rw [ha, hc b c, ← ha]⟩
  have e : ∀ (y : ℝ) (m : List ℝ), m.foldl op y = (y :: m).foldl op y := fun y m => by simp [hi]
  rw [e x l, e x' l']
  have key : ∀ (m : List ℝ) (y z : ℝ), z ∈ y :: m → (y :: m).foldl op z = m.foldl op y := by
    intro m
    induction m with
    | nil => intro y z hz; simp at hz; simp [hz, hi]
    | cons w m ih =>
      intro y z hz
      simp only [List.foldl_cons]
      rcases List.mem_cons.1 hz with rfl | hz
      · rw [hi]
      · have h1 := ih w z hz
        simp only [List.foldl_cons] at h1
        have pull : ∀ (m : List ℝ) (a b : ℝ), m.foldl op (op a b) = op b (m.foldl op a) := by
          intro m
          induction m with
          | nil => intro a b; simp [hc]
          | cons v m ih => intro a b; simp only [List.foldl_cons]; rw [← ih, ha, hc b v, ← ha]
        rw [ha, hc z, ha, hc w z, hc y, pull, h1, ← pull, hc]
  rw [key l x x (by simp), key l' x' x' (by simp), ← key l x x' (h.symm.subset (by simp)), ← key l' x' x' (by simp)]
  exact h.foldl_eq _

theorem foldl_min_perm {x x' : ℝ} {l l' : List ℝ} (h : (x :: l).Perm (x' :: l')) : l.foldl min x = l'.foldl min x' :=
  foldl_op_perm min_comm min_assoc h min_self

theorem foldl_max_perm {x x' : ℝ} {l l' : List ℝ} (h : (x :: l).Perm (x' :: l')) : l.foldl max x = l'.foldl max x' :=
  foldl_op_perm max_comm max_assoc h max_self

theorem hullBoxes_perm {o o' : Obj d} {os os' : List (Obj d)} (h : (o :: os).Perm (o' :: os')) : hullBoxes o os = hullBoxes o' os' := by
  unfold hullBoxes
  congr 1 <;> funext i
  · exact foldl_min_perm (by have := h.map fun o : Obj d => o.bbox.lo i; exact this)
  · exact foldl_max_perm (by have := h.map fun o : Obj d => o.bbox.hi i; exact this)

theorem gatherCorners_perm {os os' : List (Obj d)} (h : os.Perm os') : Option.Rel List.Perm (gatherCorners os) (gatherCorners os') := by
  unfold gatherCorners
  have hp := h.filterMap (·.corners)
  simp only [hp.length_eq]
  split_ifs
  · exact .none
  · exact .some hp.flatten

/-- **C103 (order).** The order of the domains in a union or intersection, and of the domains subtracted in a difference, does not matter. -/
theorem C103_order {o o' : Obj d} {os os' : List (Obj d)} :
    ((o :: os).Perm (o' :: os') → Same (mkUnion 0 o os) (mkUnion 0 o' os') ∧ Same (mkIntersection 0 o os) (mkIntersection 0 o' os')) ∧
    (os.Perm os' → Same (mkDifference 0 o os) (mkDifference 0 o os')) := by
  refine ⟨fun h => ⟨⟨fun x => ?_, hullBoxes_perm h, gatherCorners_perm h⟩, ⟨fun x => ?_, hullBoxes_perm h, gatherCorners_perm h⟩⟩,
    fun h => ⟨fun x => ?_, hullBoxes_perm (h.cons o), gatherCorners_perm (h.cons o)⟩⟩
  · simp only [mkUnion, unionEval, if_true]; exact foldl_min_perm (by have := h.map fun o : Obj d => o.eval x; exact this)
  · simp only [mkIntersection, interEval, if_true]; exact foldl_max_perm (by have := h.map fun o : Obj d => o.eval x; exact this)
  · simp only [mkDifference, diffEval, if_true]; exact foldl_max_perm (((h.map fun o => o.eval x).map Neg.neg).cons _)

theorem foldl_nest {op : ℝ → ℝ → ℝ} (x : ℝ) (l m : List ℝ) : m.foldl op (l.foldl op x) = (l ++ m).foldl op x := by simp

theorem hullBoxes_nest {o p : Obj d} {os ps : List (Obj d)} (h : p.bbox = hullBoxes o os) : hullBoxes p ps = hullBoxes o (os ++ ps) := by
  unfold hullBoxes at h ⊢
  simp only [List.map_cons, npMin, npMax, h, List.map_append, List.foldl_append]

theorem gatherCorners_nest {p : Obj d} {os ps : List (Obj d)} (h : p.corners = gatherCorners os) : gatherCorners (p :: ps) = gatherCorners (os ++ ps) := by
  unfold gatherCorners at h ⊢
  simp only [List.filterMap_append, List.length_append, List.flatten_append]
  rw [List.filterMap_cons]
  by_cases h0 : (os.filterMap (·.corners)).length = 0
  · rw [if_pos h0] at h
    simp only [h, h0, Nat.zero_add]
    rw [List.length_eq_zero_iff] at h0
    simp [h0]
  · rw [if_neg h0] at h
    simp only [h, List.length_cons, Nat.add_eq_zero_iff, one_ne_zero, and_false, if_false, List.flatten_cons, h0, false_and]

/-- **C103 (nesting).** A union of unions is the union of all, an intersection of intersections the intersection of all, and subtracting in two steps is
subtracting all at once: the same object. -/
theorem C103_nesting (o : Obj d) (os ps : List (Obj d)) :
    mkUnion 0 (mkUnion 0 o os) ps = mkUnion 0 o (os ++ ps) ∧
    mkIntersection 0 (mkIntersection 0 o os) ps = mkIntersection 0 o (os ++ ps) ∧
    mkDifference 0 (mkDifference 0 o os) ps = mkDifference 0 o (os ++ ps) := by
  have ext : ∀ a b : Obj d, a.eval = b.eval → a.bbox = b.bbox → a.corners = b.corners → a = b := by
    rintro ⟨_, _, _⟩ ⟨_, _, _⟩ rfl rfl rfl; rfl
  refine ⟨ext _ _ (funext fun x => ?_) (hullBoxes_nest rfl) ?_, ext _ _ (funext fun x => ?_) (hullBoxes_nest rfl) ?_,
    ext _ _ (funext fun x => ?_) (hullBoxes_nest rfl) ?_⟩
  · simp [mkUnion, unionEval]
  · exact gatherCorners_nest (os := o :: os) rfl
  · simp [mkIntersection, interEval]
  · exact gatherCorners_nest (os := o :: os) rfl
  · simp [mkDifference, diffEval]
  · exact gatherCorners_nest (os := o :: os) rfl

theorem foldl_max_neg (l : List ℝ) (x b : ℝ) : (l.map Neg.neg).foldl max (max x (-b)) = max x (-(l.foldl min b)) := by
  induction l generalizing b with
  | nil => rfl
  | cons c l ih =>
    simp only [List.map_cons, List.foldl_cons]
    rw [max_assoc, max_neg_neg, ih]

theorem foldl_min_max (l : List ℝ) (x b : ℝ) : max x (l.foldl min b) = (l.map (max x)).foldl min (max x b) := by
  induction l generalizing b with
  | nil => rfl
  | cons c l ih => simp only [List.map_cons, List.foldl_cons]; rw [ih, max_min_distrib_left]

/-- **C103 (laws between operations).** Subtracting several domains is subtracting their union, and intersecting with a union is the union of the
intersections: the same signed distances everywhere. -/
theorem C103_laws (a b : Obj d) (bs : List (Obj d)) (x : Pt d) :
    (mkDifference 0 a (b :: bs)).eval x = (mkDifference 0 a [mkUnion 0 b bs]).eval x ∧
    (mkIntersection 0 a [mkUnion 0 b bs]).eval x =
      (mkUnion 0 (mkIntersection 0 a [b]) (bs.map fun c => mkIntersection 0 a [c])).eval x := by
  constructor
  · simp only [mkDifference, mkUnion, diffEval, unionEval, if_true, List.map_cons, List.map_nil, List.foldl_cons, List.foldl_nil]
    exact foldl_max_neg _ _ _
  · simp only [mkIntersection, mkUnion, interEval, unionEval, if_true, List.map_cons, List.map_nil, List.foldl_cons, List.foldl_nil, List.map_map]
    rw [foldl_min_max, List.map_map]
    rfl

theorem listMin_perm {x x' : ℝ} {l l' : List ℝ} (h : (x :: l).Perm (x' :: l')) : listMin x l = listMin x' l' := foldl_min_perm h
theorem listMax_perm {x x' : ℝ} {l l' : List ℝ} (h : (x :: l).Perm (x' :: l')) : listMax x l = listMax x' l' := foldl_max_perm h

/-- **C103 (smooth operations, order).** With smoothness `k > 0` the signed distance changes by at most `k / 4` per additional domain when the domains are
reordered. -/
theorem C103_smooth_order {k : ℝ} (hk : 0 < k) {o o' : Obj d} {os os' : List (Obj d)} (h : (o :: os).Perm (o' :: os')) (x : Pt d) :
    |(mkUnion k o os).eval x - (mkUnion k o' os').eval x| ≤ os.length * (k / 4) ∧
    |(mkIntersection k o os).eval x - (mkIntersection k o' os').eval x| ≤ os.length * (k / 4) := by
  have hl : os.length = os'.length := by simpa using h.length_eq
  have hp := h.map fun o => o.eval x
  simp only [List.map_cons] at hp
  have u1 := C25_smooth_union hk (o.eval x) (os.map fun o => o.eval x)
  have u2 := C25_smooth_union hk (o'.eval x) (os'.map fun o => o.eval x)
  have i1 := C25_smooth_intersection hk (o.eval x) (os.map fun o => o.eval x)
  have i2 := C25_smooth_intersection hk (o'.eval x) (os'.map fun o => o.eval x)
  rw [listMin_perm hp, List.length_map] at u1
  rw [listMax_perm hp, List.length_map] at i1
  rw [List.length_map, ← hl] at u2 i2
  simp only [mkUnion, mkIntersection, abs_le]
  refine ⟨⟨?_, ?_⟩, ?_, ?_⟩ <;> linarith [u1.1, u1.2, u2.1, u2.2, i1.1, i1.2, i2.1, i2.2]

/-- A domain with a constant signed distance, for the witness below. -/
def flatObj (c : ℝ) : Obj 2 := ⟨fun _ => c, ⟨fun _ => 0, fun _ => 1⟩, none⟩

/-- **C103 (smooth operations, witness).** The order of three domains does matter, whatever the smoothness. -/
theorem C103_smooth_order_matters {k : ℝ} (hk : 0 < k) (x : Pt 2) :
    (mkUnion k (flatObj 0) [flatObj 0, flatObj (-(k / 4))]).eval x ≠ (mkUnion k (flatObj 0) [flatObj (-(k / 4)), flatObj 0]).eval x := by
  have h1 : smoothUnion k 0 0 = -(k / 4) := by
    simp only [smoothUnion, sub_zero, abs_zero, min_self, max_eq_left hk.le]; field_simp; ring
  have h2 : smoothUnion k (-(k / 4)) (-(k / 4)) = -(k / 2) := by
    simp only [smoothUnion, sub_self, sub_zero, abs_zero, min_self, max_eq_left hk.le]; field_simp; ring
  have h3 : smoothUnion k 0 (-(k / 4)) = -(25 / 64 * k) := by
    have e : |(0 : ℝ) - -(k / 4)| = k / 4 := by rw [zero_sub, neg_neg, abs_of_pos (by linarith)]
    simp only [smoothUnion, e]
    rw [max_eq_left (by linarith), min_eq_right (by linarith)]; field_simp; ring
  have h4 : smoothUnion k (-(25 / 64 * k)) 0 = -(7921 / 16384 * k) := by
    have e : |-(25 / 64 * k) - 0| = 25 / 64 * k := by rw [sub_zero, abs_neg, abs_of_pos (by linarith)]
    simp only [smoothUnion, e]
    rw [max_eq_left (by linarith), min_eq_left (by linarith)]; field_simp; ring
  simp only [mkUnion, unionEval, if_neg hk.ne', flatObj, List.map_cons, List.map_nil, loopCall, List.foldl_cons, List.foldl_nil, h1, h2, h3, h4]
  intro h
  linarith

/-- A disk, a square and another disk in two orders. -/
example : Same (mkUnion 0 (mkDisk ![0, 0] 1 ⟨.two 0, none, none⟩) [mkRectangle ⟨![0, 0], ![2, 2]⟩ ⟨.two 0, none, none⟩, mkDisk ![3, 0] 1 ⟨.two 0, none, none⟩])
    (mkUnion 0 (mkDisk ![3, 0] 1 ⟨.two 0, none, none⟩) [mkDisk ![0, 0] 1 ⟨.two 0, none, none⟩, mkRectangle ⟨![0, 0], ![2, 2]⟩ ⟨.two 0, none, none⟩]) :=
  (C103_order.1 (by
    refine ((List.Perm.swap _ _ []).cons _).trans ?_
    exact .swap _ _ _)).1

end SM.Domain
