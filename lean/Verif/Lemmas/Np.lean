import Verif.Model.Np

namespace SM.Np

variable {α κ : Type*} [LinearOrder κ]

theorem mem_insertBy_of {f : α → κ} {x z : α} {l : List α} (h : z ∈ insertBy f x l) :
    z = x ∨ z ∈ l := by
  induction l with
  | nil => simpa [insertBy] using h
  | cons y ys ih =>
    unfold insertBy at h
    split_ifs at h
    · simpa using h
    · rcases List.mem_cons.1 h with rfl | h
      · simp
      · rcases ih h with h | h <;> simp [h]
    · exact Or.inr h

theorem subset_insertBy {f : α → κ} {x z : α} {l : List α} (h : z ∈ l) : z ∈ insertBy f x l := by
  induction l with
  | nil => simp at h
  | cons y ys ih =>
    unfold insertBy
    split_ifs
    · simp [List.mem_cons.1 h]
    · rcases List.mem_cons.1 h with rfl | h
      · simp
      · simp [ih h]
    · exact h

theorem key_mem_insertBy (f : α → κ) (x : α) (l : List α) : f x ∈ (insertBy f x l).map f := by
  induction l with
  | nil => simp [insertBy]
  | cons y ys ih =>
    unfold insertBy
    split_ifs with h1 h2
    · simp
    · simp only [List.map_cons, List.mem_cons]; exact Or.inr ih
    · have : f x = f y := le_antisymm (not_lt.1 h2) (not_lt.1 h1)
      simp [this]

theorem insertBy_sorted {f : α → κ} {x : α} {l : List α}
    (h : l.Pairwise fun a b => f a < f b) : (insertBy f x l).Pairwise fun a b => f a < f b := by
  induction l with
  | nil => simp [insertBy]
  | cons y ys ih =>
    rw [List.pairwise_cons] at h
    unfold insertBy
    split_ifs with h1 h2
    · refine List.pairwise_cons.2 ⟨?_, List.pairwise_cons.2 h⟩
      intro b hb
      rcases List.mem_cons.1 hb with rfl | hb
      · exact h1
      · exact h1.trans (h.1 b hb)
    · refine List.pairwise_cons.2 ⟨?_, ih h.2⟩
      intro b hb
      rcases mem_insertBy_of hb with rfl | hb
      · exact h2
      · exact h.1 b hb
    · exact List.pairwise_cons.2 h

theorem uniqBy_sorted (f : α → κ) (l : List α) : (uniqBy f l).Pairwise fun a b => f a < f b := by
  unfold uniqBy
  induction l with
  | nil => simp
  | cons x xs ih => exact insertBy_sorted ih

theorem mem_of_mem_uniqBy {f : α → κ} {l : List α} {z : α} (h : z ∈ uniqBy f l) : z ∈ l := by
  unfold uniqBy at h
  induction l with
  | nil => simpa using h
  | cons x xs ih =>
    rcases mem_insertBy_of (show z ∈ insertBy f x (xs.foldr (insertBy f) []) from h) with rfl | h
    · simp
    · simp [ih h]

theorem key_mem_uniqBy {f : α → κ} {l : List α} {z : α} (h : z ∈ l) : f z ∈ (uniqBy f l).map f := by
  unfold uniqBy
  induction l with
  | nil => simp at h
  | cons x xs ih =>
    rcases List.mem_cons.1 h with rfl | h
    · exact key_mem_insertBy f z _
    · obtain ⟨w, hw, hwz⟩ := List.mem_map.1 (ih h)
      exact List.mem_map.2 ⟨w, subset_insertBy hw, hwz⟩

theorem mem_uniqBy {f : α → κ} (hf : Function.Injective f) {l : List α} {z : α} :
    z ∈ uniqBy f l ↔ z ∈ l := by
  refine ⟨mem_of_mem_uniqBy, fun h => ?_⟩
  obtain ⟨w, hw, hwz⟩ := List.mem_map.1 (key_mem_uniqBy (f := f) h)
  exact hf hwz ▸ hw

theorem uniqBy_nodup (f : α → κ) (l : List α) : (uniqBy f l).Nodup :=
  (uniqBy_sorted f l).imp fun h => ne_of_apply_ne f h.ne

theorem uniqId_mem {ks : List κ} {k : κ} : k ∈ uniqBy id ks ↔ k ∈ ks := mem_uniqBy Function.injective_id

theorem mapM_ok {β γ : Type} {f : β → Except String γ} {g : β → γ} {l : List β}
    (h : ∀ x ∈ l, f x = .ok (g x)) : l.mapM f = .ok (l.map g) := by
  induction l with
  | nil => rfl
  | cons x xs ih =>
    rw [List.mapM_cons, h x (by simp), ih fun y hy => h y (by simp [hy])]
    rfl

theorem sortRow_perm (r : List ℕ) : (sortRow r).Perm r := List.perm_insertionSort _ r

theorem sortRow_sorted (r : List ℕ) : (sortRow r).Pairwise (· ≤ ·) :=
  List.pairwise_insertionSort (· ≤ ·) r

theorem sortRow_eq_iff {r s : List ℕ} : sortRow r = sortRow s ↔ r.Perm s := by
  constructor
  · intro h
    exact (sortRow_perm r).symm.trans (h ▸ sortRow_perm s)
  · intro h
    exact List.Perm.eq_of_pairwise' (sortRow_sorted r) (sortRow_sorted s)
      ((sortRow_perm r).trans (h.trans (sortRow_perm s).symm))

theorem sortRow_of_sorted {r : List ℕ} (h : r.Pairwise (· ≤ ·)) : sortRow r = r :=
  List.Perm.eq_of_pairwise' (sortRow_sorted r) h (sortRow_perm r)

end SM.Np
