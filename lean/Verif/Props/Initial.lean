import Verif.Model.Generate
import Verif.Props.MeshLoop
import Verif.Props.InitPoints
import Verif.Props.Lipschitz

/-!
# C98: the points of the first triangulation are spread evenly over the domain
-/

namespace SM.Initial

open Np Init MeshLoop Gen

noncomputable section
variable {κ ρ : Type} [LinearOrder κ] [LinearOrder ρ]

/-! ## Specification -/

/-- The domain argument stands for the signed distance function `fd` and the box `box`: an object of the geometry module, or a function together with
the option `bbox`. -/
def Describes {P : Type} (domain : DomainArg P) (kw : Kwargs) (fd : P → ℝ) (box : List ℝ) : Prop :=
  (∃ corners, domain = .geometry fd (box.map Num.flt) corners) ∨ (domain = .callable fd ∧ kw.lookup "bbox" = some (.tup (box.map Num.flt)))

/-- The edge length argument stands for the function `fh` with smallest size `h`: a number, a function together with the option `h0`, or a
sizing function on the box of the domain. -/
def Asks {P : Type} (edge : SizeArg P) (kw : Kwargs) (box : List ℝ) (fh : P → ℝ) (h : ℝ) : Prop :=
  (edge = .scalar h ∧ fh = fun _ => h) ∨ (edge = .callable fh ∧ kw.lookup "h0" = some (.num (.flt h))) ∨ edge = .sizeFunction fh (box.map Num.flt) h

/-- `gen` are points in the box, up to a margin above, and in the enlarged domain, no two of them closer than `h`. -/
structure Spread {d : ℕ} (lo hi : Fin d → ℝ) (h geps : ℝ) (fd : (Fin d → ℝ) → ℝ) (gen : List (Fin d → ℝ)) : Prop where
  nodup : gen.Nodup
  apart : ∀ x ∈ gen, ∀ y ∈ gen, x ≠ y → ∃ k, h ≤ |x k - y k|
  inBox : ∀ x ∈ gen, ∀ k, lo k ≤ x k ∧ x k < hi k + 3 / 2 * h
  inside : ∀ x ∈ gen, fd x < geps

/-- Every point of the box that is deep enough in the domain has a point of `gen` within `h / 2` in every coordinate. -/
def Covers {d : ℕ} (lo hi : Fin d → ℝ) (h geps : ℝ) (fd : (Fin d → ℝ) → ℝ) (gen : List (Fin d → ℝ)) : Prop :=
  ∀ x : Fin d → ℝ, (∀ k, lo k ≤ x k ∧ x k ≤ hi k) → (∀ y : Fin d → ℝ, (∀ k, |x k - y k| ≤ h / 2) → fd y < geps) →
    ∃ y ∈ gen, ∀ k, |x k - y k| ≤ h / 2

/-! ## The grid -/

theorem shift_nonneg {h : ℝ} (hh : 0 < h) (i : ℕ) : 0 ≤ shift h i ∧ shift h i ≤ h / 2 := by
  unfold shift; split <;> constructor <;> linarith

/-- A grid coordinate within half a spacing. -/
theorem near {h s e x σ : ℝ} (hh : 0 < h) {n : ℕ} (hn : e ≤ s + ((n : ℝ) - 1) * h) (hs : σ = 0 ∨ σ = h / 2) (h1 : s ≤ x) (h2 : x ≤ e) :
    ∃ j < n, |x - (s + j * h + σ)| ≤ h / 2 := by
  rcases hs with rfl | rfl
  · -- nearest multiple
    have h0 : 0 ≤ (x - s) / h + 1 / 2 := by have : 0 ≤ (x - s) / h := div_nonneg (by linarith) hh.le; linarith
    refine ⟨⌊(x - s) / h + 1 / 2⌋₊, ?_, ?_⟩
    · rw [Nat.floor_lt h0]
      have : (x - s) / h ≤ (n : ℝ) - 1 := by rw [div_le_iff₀ hh]; linarith
      linarith
    · have a := Nat.floor_le h0
      have b := Nat.lt_floor_add_one ((x - s) / h + 1 / 2)
      set j : ℝ := (⌊(x - s) / h + 1 / 2⌋₊ : ℝ)
      have e : x - s = (x - s) / h * h := by field_simp
      have a' : (j - 1 / 2) * h ≤ x - s := by rw [e]; exact mul_le_mul_of_nonneg_right (by linarith) hh.le
      have b' : x - s ≤ (j + 1 / 2) * h := by
        conv_lhs => rw [e]
        exact mul_le_mul_of_nonneg_right (by linarith) hh.le
      rw [abs_le]
      constructor <;> linarith
  · have h0 : 0 ≤ (x - s) / h := div_nonneg (by linarith) hh.le
    refine ⟨⌊(x - s) / h⌋₊, ?_, ?_⟩
    · rw [Nat.floor_lt h0]
      have : (x - s) / h ≤ (n : ℝ) - 1 := by rw [div_le_iff₀ hh]; linarith
      linarith
    · have a := Nat.floor_le h0
      have b := Nat.lt_floor_add_one ((x - s) / h)
      set j : ℝ := (⌊(x - s) / h⌋₊ : ℝ)
      have e : x - s = (x - s) / h * h := by field_simp
      have a' : j * h ≤ x - s := by rw [e]; exact mul_le_mul_of_nonneg_right (by linarith) hh.le
      have b' : x - s ≤ (j + 1) * h := by
        conv_lhs => rw [e]
        exact mul_le_mul_of_nonneg_right (by linarith) hh.le
      rw [abs_le]
      constructor <;> linarith

variable {d : ℕ} [NeZero d]

theorem grid_apart {h : ℝ} (hh : 0 < h) {s : Fin d → ℝ} {n : Fin d → ℕ} {G : List (Fin d → ℝ)} (hG : IsGrid h s n G) :
    ∀ x ∈ G, ∀ y ∈ G, x ≠ y → ∃ k, h ≤ |x k - y k| := by
  intro x hx y hy hne
  obtain ⟨i, hi, hxi⟩ := (hG x).1 hx
  obtain ⟨j, hj, hyj⟩ := (hG y).1 hy
  have key : ∀ k, i k ≠ j k → h ≤ |((i k : ℝ) - j k) * h| := by
    intro k hk
    rw [abs_mul, abs_of_pos hh]
    have : (1 : ℝ) ≤ |(i k : ℝ) - j k| := by
      have h1 : (1 : ℤ) ≤ |(i k : ℤ) - j k| := Int.one_le_abs (by omega)
      exact_mod_cast h1
    nlinarith
  by_cases h0 : i 0 = j 0
  · obtain ⟨k, hk⟩ : ∃ k, i k ≠ j k := by
      by_contra hc
      push Not at hc
      apply hne
      funext k
      rw [hxi k, hyj k, hc k, h0]
    refine ⟨k, ?_⟩
    have : x k - y k = ((i k : ℝ) - j k) * h := by rw [hxi k, hyj k, h0]; ring
    rw [this]; exact key k hk
  · refine ⟨0, ?_⟩
    have : x 0 - y 0 = ((i 0 : ℝ) - j 0) * h := by rw [hxi 0, hyj 0]; simp; ring
    rw [this]; exact key 0 h0

theorem grid_box {h : ℝ} (hh : 0 < h) {s e : Fin d → ℝ} {n : Fin d → ℕ} {G : List (Fin d → ℝ)} (hG : IsGrid h s n G)
    (hn : ∀ k, s k + ((n k : ℝ) - 1) * h < e k + h) : ∀ x ∈ G, ∀ k, s k ≤ x k ∧ x k < e k + 3 / 2 * h := by
  intro x hx k
  obtain ⟨j, hj, hxj⟩ := (hG x).1 hx
  have hs := shift_nonneg hh (j 0)
  have h2 : 0 ≤ (if k = 0 then 0 else shift h (j 0)) ∧ (if k = 0 then 0 else shift h (j 0)) ≤ h / 2 := by
    split
    · constructor <;> linarith
    · exact hs
  have hjn : (j k : ℝ) ≤ (n k : ℝ) - 1 := by have : (j k : ℝ) + 1 ≤ n k := by exact_mod_cast hj k
                                             linarith
  have h3 : (j k : ℝ) * h ≤ ((n k : ℝ) - 1) * h := mul_le_mul_of_nonneg_right hjn hh.le
  have h4 : (0 : ℝ) ≤ (j k : ℝ) * h := by positivity
  rw [hxj k]
  constructor <;> linarith [hn k]

theorem grid_covers {h : ℝ} (hh : 0 < h) {s e : Fin d → ℝ} {n : Fin d → ℕ} {G : List (Fin d → ℝ)} (hG : IsGrid h s n G)
    (hn : ∀ k, e k ≤ s k + ((n k : ℝ) - 1) * h) {x : Fin d → ℝ} (hx : ∀ k, s k ≤ x k ∧ x k ≤ e k) : ∃ y ∈ G, ∀ k, |x k - y k| ≤ h / 2 := by
  obtain ⟨i, hi, hxi⟩ := near hh (hn 0) (.inl rfl) (hx 0).1 (hx 0).2
  have hsh : shift h i = 0 ∨ shift h i = h / 2 := by unfold shift; split <;> simp
  choose j hj hxj using fun k => near hh (hn k) hsh (hx k).1 (hx k).2
  refine ⟨fun k => if k = 0 then s 0 + i * h else s k + j k * h + shift h i, (hG _).2 ⟨fun k => if k = 0 then i else j k, ?_, ?_⟩, ?_⟩
  · intro k
    by_cases hk : k = 0
    · subst hk; simpa using hi
    · simpa [hk] using hj k
  · intro k
    by_cases hk : k = 0
    · subst hk; simp
    · simp [hk]
  · intro k
    by_cases hk : k = 0
    · subst hk; simpa using hxi
    · simpa [hk] using hxj k

omit [NeZero d] in
theorem nodup_gridVals {s h : ℝ} (hh : 0 < h) (n : ℕ) : (gridVals s h n).Nodup := by
  unfold gridVals
  refine List.Nodup.map ?_ List.nodup_range
  intro a b hab
  simp only [add_right_inj, mul_eq_mul_right_iff, Nat.cast_inj, hh.ne', or_false] at hab
  exact hab

omit [NeZero d] in
theorem nodup_staggered2 {h : ℝ} {xs ys : List ℝ} (hx : xs.Nodup) (hy : ys.Nodup) : (staggered2 h xs ys).Nodup := by
  unfold staggered2
  rw [List.nodup_flatMap]
  constructor
  · rintro ⟨x, i⟩ _
    refine hy.map ?_
    intro a b hab
    have := congrFun hab 1
    simpa using this
  · have : xs.zipIdx.Pairwise fun a b => a.1 ≠ b.1 := by
      have h1 : (xs.zipIdx.map Prod.fst).Nodup := by rw [List.zipIdx_map_fst]; exact hx
      exact List.pairwise_map.1 h1
    refine this.imp ?_
    intro a b hab q hq hq'
    simp only [List.mem_map] at hq hq'
    obtain ⟨y, _, rfl⟩ := hq
    obtain ⟨y', _, h2⟩ := hq'
    exact hab (by have := congrFun h2 0; simpa using this.symm)

omit [NeZero d] in
theorem nodup_staggered3 {h : ℝ} {xs ys zs : List ℝ} (hx : xs.Nodup) (hy : ys.Nodup) (hz : zs.Nodup) : (staggered3 h xs ys zs).Nodup := by
  unfold staggered3
  rw [List.nodup_flatMap]
  constructor
  · rintro ⟨x, i⟩ _
    rw [List.nodup_flatMap]
    constructor
    · intro y _
      refine hz.map ?_
      intro a b hab
      have := congrFun hab 2
      simpa using this
    · refine List.Pairwise.imp ?_ hy
      intro a b hab q hq hq'
      simp only [List.mem_map] at hq hq'
      obtain ⟨y, _, rfl⟩ := hq
      obtain ⟨y', _, h2⟩ := hq'
      exact hab (by have := congrFun h2 1; simpa using this.symm)
  · have : xs.zipIdx.Pairwise fun a b => a.1 ≠ b.1 := by
      have h1 : (xs.zipIdx.map Prod.fst).Nodup := by rw [List.zipIdx_map_fst]; exact hx
      exact List.pairwise_map.1 h1
    refine this.imp ?_
    intro a b hab q hq hq'
    simp only [List.mem_flatMap, List.mem_map] at hq hq'
    obtain ⟨y, _, z, _, rfl⟩ := hq
    obtain ⟨y', _, z', _, h2⟩ := hq'
    exact hab (by have := congrFun h2 0; simpa using this.symm)

omit [NeZero d] in
/-- On one process the two ways to make the grid agree. -/
theorem rawPoints_serial {h : ℝ} {axis : ℕ} {b : List (ℝ × ℝ)} {lsf : Bool} : rawPoints h d 1 0 axis b lsf = createStaggeredGrid h d b := by
  have hl : ∀ (i : ℕ) (b : List (ℝ × ℝ)), localBox h 1 0 axis i b = .ok b := by
    intro i b
    induction b generalizing i with
    | nil => rfl
    | cons x b ih =>
      have : (if i = axis then localLims h x 1 0 else pure x : Except String (ℝ × ℝ)) = .ok x := by
        split
        · simp [localLims, lims]
        · rfl
      simp only [localBox]
      rw [this, ih]
      rfl
  unfold rawPoints makeInitPoints
  cases lsf <;> simp [hl, bind, Except.bind]

omit [NeZero d] in
theorem C98_main [NeZero d] {I : Input d} {p : List (Fin d → ℝ)} (hrun : serialPoints I = .ok p) (hh : 0 < I.h0) {lo hi : Fin d → ℝ} {n : Fin d → ℕ}
    {G : List (Fin d → ℝ)} (hraw : createStaggeredGrid I.h0 d I.bbox = .ok G) (hG : IsGrid I.h0 lo n G) (hnd : G.Nodup)
    (h1 : ∀ k, lo k + ((n k : ℝ) - 1) * I.h0 < hi k + I.h0) (h2 : ∀ k, hi k ≤ lo k + ((n k : ℝ) - 1) * I.h0) :
    ∃ gen, p = I.pfix ++ gen ∧ Spread lo hi I.h0 I.geps I.fd gen ∧
      (I.r0mIsH0 = false → (∀ i, I.rand i < 1) → (∃ c > 0, ∀ x, I.fh 0 x = c) → Covers lo hi I.h0 I.geps I.fd gen) := by
  obtain ⟨raw, r0m, m0, hr, ⟨cand, kept, hc, hsub, hsel, hp⟩, ⟨x0, hx0, hx0', hm0⟩, hm0', hdef, -⟩ := C59_serial hrun
  rw [rawPoints_serial, hraw, Except.ok.injEq] at hr
  subst hr
  have hkc : ∀ x ∈ kept, x ∈ cand := by
    obtain ⟨ix, hs, hf, hi⟩ := hsel
    intro x hx
    have hget := (List.forall₂_iff_get.1 hf).2
    obtain ⟨m, hm, rfl⟩ := List.getElem_of_mem hx
    have hl := hf.length_eq
    exact List.mem_of_getElem? (hget m (by omega) hm)
  have hkG : ∀ x ∈ kept, x ∈ G ∧ I.fd x < I.geps := fun x hx => (hc x).1 (hkc x hx)
  refine ⟨kept, hp, ⟨?_, ?_, ?_, ?_⟩, ?_⟩
  · obtain ⟨ix, hs, hf, hi⟩ := hsel
    have hcn := hnd.sublist hsub
    have hget := (List.forall₂_iff_get.1 hf).2
    have hl := hf.length_eq
    rw [List.nodup_iff_injective_get]
    intro a b hab
    have ha := hget a (by omega) a.2
    have hb := hget b (by omega) b.2
    simp only [List.get_eq_getElem] at ha hb hab
    rw [hab] at ha
    obtain ⟨la, ha'⟩ := List.getElem?_eq_some_iff.1 ha
    obtain ⟨lb, hb'⟩ := List.getElem?_eq_some_iff.1 hb
    have hix := (List.Nodup.getElem_inj_iff hcn).1 (ha'.trans hb'.symm)
    have := (List.Nodup.getElem_inj_iff (hs.imp fun h => ne_of_lt h)).1 hix
    exact Fin.ext this
  · exact fun x hx y hy => grid_apart hh hG x (hkG x hx).1 y (hkG y hy).1
  · exact fun x hx => grid_box hh hG h1 x (hkG x hx).1
  · exact fun x hx => (hkG x hx).2
  · intro hr hrand ⟨c, hcp, hcc⟩ x hx hdeep
    obtain ⟨y, hy, hd⟩ := grid_covers hh hG h2 hx
    have hy' : y ∈ cand := (hc y).2 ⟨hy, hdeep y hd⟩
    have hall : kept = cand := by
      apply selects_all hsel
      intro i z _
      unfold Keep
      rw [hdef hr, ← hm0, hcc, hcc, div_self hcp.ne', one_pow]
      exact hrand i
    exact ⟨y, hall ▸ hy', hd⟩

/-! ## The call -/

omit [NeZero d] in
theorem checkFloats_flt (l : List ℝ) : checkFloats (l.map Num.flt) = .ok () := by
  induction l with
  | nil => rfl
  | cons a l ih => exact ih

omit [NeZero d] in
theorem minmax_self (l : List ℝ) : minmax l l = l := by
  have : ∀ (i : ℕ) (l : List ℝ), minmaxFrom i l l = l := by
    intro i l
    induction l generalizing i with
    | nil => rfl
    | cons a l ih => simp [minmaxFrom, ih]
  exact this 0 l

omit [NeZero d] in
theorem map_val_flt (l : List ℝ) : (l.map Num.flt).map Num.val = l := by
  rw [List.map_map]; exact List.map_id'' (fun _ => rfl) l

omit [NeZero d] in
/-- What the front end makes of the arguments. -/
theorem setup_of {P : Type} {boxEval : List ℝ → P → ℝ} {domain : DomainArg P} {edge : SizeArg P} {kw : Kwargs} {fd fh : P → ℝ} {box : List ℝ} {h : ℝ}
    (hD : Describes domain kw fd box) (hA : Asks edge kw box fh h) {S : Setup P} (hS : genSetup boxEval domain edge kw = .ok S) :
    S.fd = fd ∧ S.fh = fh ∧ S.bbox = box ∧ S.h0 = h := by
  have hdom : ∃ c, unpackDomain domain kw = .ok (fd, .tup (box.map Num.flt), c) := by
    rcases hD with ⟨c, rfl⟩ | ⟨rfl, hb⟩
    · exact ⟨c, by simp [unpackDomain, checkBbox, checkFloats_flt, bind, Except.bind, pure, Except.pure]⟩
    · exact ⟨none, by simp [unpackDomain, getOpt, hb, checkBbox, checkFloats_flt, bind, Except.bind, pure, Except.pure]⟩
  obtain ⟨c, hdom⟩ := hdom
  unfold genSetup at hS
  simp only [hdom, bind, Except.bind, pure, Except.pure] at hS
  split at hS
  · simp at hS
  split at hS
  · simp at hS
  split at hS
  · simp at hS
  split at hS
  · simp at hS
  rcases hA with ⟨rfl, rfl⟩ | ⟨rfl, hk⟩ | rfl
  · simp only [unpackSizing, checkBbox, mergeBbox, Rebuild, bind, Except.bind, pure, Except.pure, throw, throwThe, MonadExceptOf.throw, map_val_flt] at hS
    split at hS
    · simp at hS
    rename_i fd' hfd
    have hfd : fd' = fd := by
      have : (Except.ok fd : Except String (P → ℝ)) = .ok fd' := by simpa using hfd
      exact (Except.ok.inj this).symm
    subst hfd
    split at hS
    · simp at hS
    split at hS
    · simp at hS
    simp only [Except.ok.injEq] at hS
    subst hS
    exact ⟨rfl, rfl, rfl, rfl⟩
  · simp only [unpackSizing, checkBbox, mergeBbox, Rebuild, bind, Except.bind, pure, Except.pure, throw, throwThe, MonadExceptOf.throw, map_val_flt, getOpt, hk,
      asNum, Num.val] at hS
    split at hS
    · simp at hS
    rename_i fd' hfd
    have hfd : fd' = fd := by
      have : (Except.ok fd : Except String (P → ℝ)) = .ok fd' := by simpa using hfd
      exact (Except.ok.inj this).symm
    subst hfd
    split at hS
    · simp at hS
    split at hS
    · simp at hS
    simp only [Except.ok.injEq] at hS
    subst hS
    exact ⟨rfl, rfl, rfl, rfl⟩
  · simp only [unpackSizing, checkBbox, checkFloats_flt, mergeBbox, seqOf, Rebuild, bind, Except.bind, pure, Except.pure, throw, throwThe, MonadExceptOf.throw,
      map_val_flt, minmax_self, ne_eq, not_true_eq_false] at hS
    split at hS
    · simp at hS
    rename_i fd' hfd
    have hfd : fd' = fd := by
      have : (Except.ok fd : Except String (P → ℝ)) = .ok fd' := by simpa using hfd
      exact (Except.ok.inj this).symm
    subst hfd
    split at hS
    · simp at hS
    split at hS
    · simp at hS
    simp only [Except.ok.injEq] at hS
    subst hS
    exact ⟨rfl, rfl, rfl, rfl⟩

omit [NeZero d] in
theorem start_of {boxEval : List ℝ → (Fin d → ℝ) → ℝ} {domain : DomainArg (Fin d → ℝ)} {edge : SizeArg (Fin d → ℝ)} {kw : Kwargs} {fd fh : (Fin d → ℝ) → ℝ}
    {box : List ℝ} {h : ℝ} (hD : Describes domain kw fd box) (hA : Asks edge kw box fh h) {R : Generate.Rest d κ ρ} (hpts : R.points = none) {st : State d}
    (hrun : Generate.generateMesh boxEval domain edge kw R 0 = .running st) :
    ∃ pfix lsf, serialPoints ⟨h, R.gepsMult * h, Generate.pairs box, fd, fun _ => fh, pfix, R.axis, lsf, R.r0mIsH0, R.rand⟩ = .ok st.p := by
  unfold Generate.generateMesh at hrun
  split at hrun
  · simp at hrun
  rename_i E p hp
  simp only [run, Outcome.running.injEq] at hrun
  subst hrun
  simp only [Generate.prepare, bind, Except.bind, pure, Except.pure] at hp
  split at hp
  · simp at hp
  rename_i S hS
  obtain ⟨rfl, rfl, rfl, rfl⟩ := setup_of hD hA hS
  split at hp
  · simp [throw, throwThe, MonadExceptOf.throw] at hp
  split at hp
  · simp at hp
  rename_i q hq
  split at hp
  · simp at hp
  split at hp
  · simp [throw, throwThe, MonadExceptOf.throw] at hp
  simp only [Except.ok.injEq, Prod.mk.injEq] at hp
  obtain ⟨-, rfl⟩ := hp
  simp only [Generate.initial, hpts] at hq
  exact ⟨_, _, hq⟩

/-- **C98 (2-D).** `generate_mesh` on one process, for any domain with box `(x1, x2, y1, y2)`, any edge lengths with smallest size `h` and any options, without
user points: the first triangulation is of the fixed points followed by points of the box (up to a margin) in the enlarged domain, no two of which are closer
than `h`. If the edge length is constant (default options), every point of the domain that is deep enough is within `h / 2` of one of them in every
coordinate. -/
theorem C98_spread2 {boxEval : List ℝ → (Fin 2 → ℝ) → ℝ} {domain : DomainArg (Fin 2 → ℝ)} {edge : SizeArg (Fin 2 → ℝ)} {kw : Kwargs} {fd fh : (Fin 2 → ℝ) → ℝ}
    {x1 x2 y1 y2 h : ℝ} (hD : Describes domain kw fd [x1, x2, y1, y2]) (hA : Asks edge kw [x1, x2, y1, y2] fh h) (hh : 0 < h) (hx : x1 ≤ x2) (hy : y1 ≤ y2)
    {R : Generate.Rest 2 κ ρ} (hpts : R.points = none) {st : State 2} (hrun : Generate.generateMesh boxEval domain edge kw R 0 = .running st) :
    ∃ fix gen, st.p = fix ++ gen ∧ Spread ![x1, y1] ![x2, y2] h (R.gepsMult * h) fd gen ∧
      (R.r0mIsH0 = false → (∀ i, R.rand i < 1) → (∃ c > 0, ∀ x, fh x = c) → Covers ![x1, y1] ![x2, y2] h (R.gepsMult * h) fd gen) := by
  obtain ⟨pfix, lsf, hser⟩ := start_of hD hA hpts hrun
  obtain ⟨n0, -, hm0, ha0, hb0, -⟩ := mgridAxis_ok hh (b := (x1, x2)) (by simp only; linarith)
  obtain ⟨n1, -, hm1, ha1, hb1, -⟩ := mgridAxis_ok hh (b := (y1, y2)) (by simp only; linarith)
  have hG := isGrid2 (h := h) ![x1, y1] ![n0, n1]
  have hraw : createStaggeredGrid h 2 (Generate.pairs [x1, x2, y1, y2]) = .ok (staggered2 h (gridVals x1 h n0) (gridVals y1 h n1)) := by
    simp only [createStaggeredGrid, Generate.pairs, hm0, hm1, bind, Except.bind, pure, Except.pure]
  obtain ⟨gen, hp, hs, hc⟩ := C98_main hser hh hraw hG (nodup_staggered2 (nodup_gridVals hh n0) (nodup_gridVals hh n1)) (hi := ![x2, y2])
    (by intro k; fin_cases k <;> simpa) (by intro k; fin_cases k <;> simpa)
  exact ⟨_, gen, hp, hs, hc⟩

/-- **C98 (3-D).** -/
theorem C98_spread3 {boxEval : List ℝ → (Fin 3 → ℝ) → ℝ} {domain : DomainArg (Fin 3 → ℝ)} {edge : SizeArg (Fin 3 → ℝ)} {kw : Kwargs} {fd fh : (Fin 3 → ℝ) → ℝ}
    {x1 x2 y1 y2 z1 z2 h : ℝ} (hD : Describes domain kw fd [x1, x2, y1, y2, z1, z2]) (hA : Asks edge kw [x1, x2, y1, y2, z1, z2] fh h) (hh : 0 < h)
    (hx : x1 ≤ x2) (hy : y1 ≤ y2) (hz : z1 ≤ z2)
    {R : Generate.Rest 3 κ ρ} (hpts : R.points = none) {st : State 3} (hrun : Generate.generateMesh boxEval domain edge kw R 0 = .running st) :
    ∃ fix gen, st.p = fix ++ gen ∧ Spread ![x1, y1, z1] ![x2, y2, z2] h (R.gepsMult * h) fd gen ∧
      (R.r0mIsH0 = false → (∀ i, R.rand i < 1) → (∃ c > 0, ∀ x, fh x = c) → Covers ![x1, y1, z1] ![x2, y2, z2] h (R.gepsMult * h) fd gen) := by
  obtain ⟨pfix, lsf, hser⟩ := start_of hD hA hpts hrun
  obtain ⟨n0, -, hm0, ha0, hb0, -⟩ := mgridAxis_ok hh (b := (x1, x2)) (by simp only; linarith)
  obtain ⟨n1, -, hm1, ha1, hb1, -⟩ := mgridAxis_ok hh (b := (y1, y2)) (by simp only; linarith)
  obtain ⟨n2, -, hm2, ha2, hb2, -⟩ := mgridAxis_ok hh (b := (z1, z2)) (by simp only; linarith)
  have hG := isGrid3 (h := h) ![x1, y1, z1] ![n0, n1, n2]
  have hraw : createStaggeredGrid h 3 (Generate.pairs [x1, x2, y1, y2, z1, z2]) =
      .ok (staggered3 h (gridVals x1 h n0) (gridVals y1 h n1) (gridVals z1 h n2)) := by
    simp only [createStaggeredGrid, Generate.pairs, hm0, hm1, hm2, bind, Except.bind, pure, Except.pure]
  obtain ⟨gen, hp, hs, hc⟩ := C98_main hser hh hraw hG (nodup_staggered3 (nodup_gridVals hh n0) (nodup_gridVals hh n1) (nodup_gridVals hh n2))
    (hi := ![x2, y2, z2]) (by intro k; fin_cases k <;> simpa) (by intro k; fin_cases k <;> simpa)
  exact ⟨_, gen, hp, hs, hc⟩

omit [NeZero d] in
/-- **C98 (depth).** If the signed distance function changes by at most the distance moved (`C96` for the domains of the geometry module), then "deep enough"
means that the point is in the domain by `√d / 2 * h - geps`; the initial point found is not farther away than `√d / 2 * h`. -/
theorem C98_depth {lo hi : Fin d → ℝ} {h geps : ℝ} (hh : 0 < h) {fd : (Fin d → ℝ) → ℝ} {gen : List (Fin d → ℝ)} (hL : Domain.Lip 1 fd) (hc : Covers lo hi h geps fd gen)
    (x : Fin d → ℝ) (hx : ∀ k, lo k ≤ x k ∧ x k ≤ hi k) (hdeep : fd x < geps - √d / 2 * h) : ∃ y ∈ gen, Sdf.eucl x y ≤ √d / 2 * h := by
  have hdist : ∀ y : Fin d → ℝ, (∀ k, |x k - y k| ≤ h / 2) → Sdf.eucl x y ≤ √d / 2 * h := by
    intro y hy
    unfold Sdf.eucl
    have h1 : ∑ i, (x i - y i) ^ 2 ≤ d * (h / 2) ^ 2 := by
      calc ∑ i, (x i - y i) ^ 2 ≤ ∑ _i : Fin d, (h / 2) ^ 2 := Finset.sum_le_sum fun i _ => by
            rw [← sq_abs]; exact pow_le_pow_left₀ (abs_nonneg _) (hy i) 2
        _ = d * (h / 2) ^ 2 := by simp
    calc √(∑ i, (x i - y i) ^ 2) ≤ √(d * (h / 2) ^ 2) := Real.sqrt_le_sqrt h1
      _ = √d * (h / 2) := by rw [Real.sqrt_mul (by positivity), Real.sqrt_sq (by positivity)]
      _ = √d / 2 * h := by ring
  obtain ⟨y, hy, hd⟩ := hc x hx fun y hy => by
    have := hL x y
    have h2 := hdist y hy
    have h3 := neg_abs_le (fd x - fd y)
    linarith
  exact ⟨y, hy, hdist y hd⟩

example : ∃ y ∈ [(fun _ => 1 / 2 : Fin 2 → ℝ)], Sdf.eucl (![1 / 4, 1] : Fin 2 → ℝ) y ≤ √(2 : ℕ) / 2 * 1 := by
  refine C98_depth (lo := fun _ => 0) (hi := fun _ => 1) (geps := 1 / 10) (fd := fun _ => -2) one_pos (fun p q => by simp [Sdf.eucl, Real.sqrt_nonneg]) ?_ _ ?_ ?_
  · intro x hx _
    refine ⟨_, List.mem_singleton.2 rfl, fun k => ?_⟩
    have h1 := (hx k).1
    have h2 := (hx k).2
    simp only at h1 h2
    rw [abs_le]
    constructor <;> linarith
  · intro k; fin_cases k <;> norm_num
  · have : √((2 : ℕ) : ℝ) ≤ 2 := by rw [Real.sqrt_le_left (by norm_num)]; norm_num
    rw [Nat.cast_ofNat] at this ⊢
    linarith

/-- The unit square with edge length 1: one triangle of three points. -/
theorem square_start (T : Tools 2 κ ρ) :
    Generate.generateMesh box2 (.geometry (Sdf.drectangle 0 1 0 1) [.flt 0, .flt 1, .flt 0, .flt 1] none) (.scalar 1) []
      ⟨none, none, [], 0, 0.1, 0.1, false, ⟨true, true, true⟩, fun _ => 1 / 2, T, fun p => (p, [[0, 1, 2]]), 1 / 2 ^ 52, 1 / 2 ^ 26⟩ 0 =
      .running ⟨0, [![0, 0], ![0, 1], ![1, 1 / 2]], 0⟩ := by
  have hS : Gen.genSetup (P := Fin 2 → ℝ) box2 (.geometry (Sdf.drectangle 0 1 0 1) [.flt 0, .flt 1, .flt 0, .flt 1] none) (.scalar 1)
      [] = .ok ⟨Sdf.drectangle 0 1 0 1, fun _ => 1, [0, 1, 0, 1], 1, none, true, (true, false)⟩ := by
    simp [Gen.genSetup, Gen.parseKwargs, Gen.getOpt, Gen.defaults, Gen.asNum, Gen.Num.val, Gen.selectVerbosity, Gen.unpackDomain,
      Gen.unpackSizing, Gen.checkBbox, Gen.checkFloats, Gen.mergeBbox, Gen.Rebuild, bind, Except.bind, pure, Except.pure, List.lookup]
  have hm : Gen.maxIterOf [] = .ok 50 := by
    simp [Gen.maxIterOf, Gen.getOpt, Gen.defaults, Gen.asNum, Gen.Num.val, bind, Except.bind, pure, Except.pure, List.lookup]
  have hc : gridCount 0 (1 + 1) 1 = 2 := by norm_num [gridCount]
  have hg : gridVals 0 1 2 = [0, 1] := by simp [gridVals, List.range_succ]
  have hax : mgridAxis 1 (0, 1) = .ok [0, 1] := by
    simp only [mgridAxis, hc]; norm_num; exact hg
  have hst : staggered2 1 [0, 1] [0, 1] = [![0, 0], ![0, 1], ![1, 1 / 2], ![1, 3 / 2]] := by
    norm_num [staggered2, shift, List.zipIdx]
  have hraw : rawPoints 1 2 1 0 0 [(0, 1), (0, 1)] true = .ok [![0, 0], ![0, 1], ![1, 1 / 2], ![1, 3 / 2]] := by
    rw [rawPoints_serial]
    simp only [createStaggeredGrid, hax, bind, Except.bind, pure, Except.pure, hst]
  have hin : inside (Sdf.drectangle 0 1 0 1) (0.1 * 1) [![0, 0], ![0, 1], ![1, 1 / 2], ![1, 3 / 2]] = [![0, 0], ![0, 1], ![1, 1 / 2]] := by
    norm_num [inside, Sdf.drectangle, List.filter_cons]
  have hini : serialPoints (d := 2) ⟨1, 0.1 * 1, [(0, 1), (0, 1)], Sdf.drectangle 0 1 0 1, fun _ _ => 1, [], 0, true, false, fun _ => 1 / 2⟩ =
      .ok [![0, 0], ![0, 1], ![1, 1 / 2]] := by
    simp only [serialPoints, candidates, hraw, hin, bind, Except.bind, pure, Except.pure, rankR0m, localR0m, minOf, rankPoints, reject]
    norm_num [List.zipIdx, List.filter_cons]
  unfold Generate.generateMesh
  simp only [Generate.prepare, hS, Generate.initial, Generate.fixOf, fixedPoints, unpackPfix, Generate.pairs, hini, hm, bind, Except.bind, pure, Except.pure, run]
  simp

example (T : Tools 2 (List ℝ) (List ℕ)) : ∃ fix gen, ([![0, 0], ![0, 1], ![1, 1 / 2]] : List (Fin 2 → ℝ)) = fix ++ gen ∧
    Spread ![0, 0] ![1, 1] 1 (0.1 * 1) (Sdf.drectangle 0 1 0 1) gen := by
  obtain ⟨fix, gen, h, hs, -⟩ := C98_spread2 (x1 := 0) (x2 := 1) (y1 := 0) (y2 := 1) (h := 1) (.inl ⟨none, rfl⟩) (.inl ⟨rfl, rfl⟩) (by norm_num) (by norm_num)
    (by norm_num) rfl (square_start T)
  exact ⟨fix, gen, h, hs⟩

/-- The unit square with a fixed point and a corner: the hypotheses of `C55_fixed_points` and `C55_corners_partial` are met. -/
theorem square_fixed (T : Tools 2 κ ρ) {D : List (Fin 2 → ℝ) → List (Fin 2 → ℝ) × List (List ℕ)} (hD : ∀ p, ∀ x ∈ p, x ∈ (D p).1) :
    ∃ (R : Generate.Rest 2 κ ρ) (E : Env 2 κ ρ) (p0 : List (Fin 2 → ℝ)), R.points = none ∧ R.pfix = some [![1, 1]] ∧ R.dt = D ∧
    Generate.prepare box2 (.geometry (Sdf.drectangle 0 1 0 1) [.flt 0, .flt 1, .flt 0, .flt 1] (some [![0, 0]])) (.scalar 1) [] R = .ok (E, p0) ∧
    MeshLoop.KeepsPoints E ∧ MeshLoop.FixedOk E ∧ -1000 * E.deps < E.fd ![0, 0] ∧
    Generate.generateMesh box2 (.geometry (Sdf.drectangle 0 1 0 1) [.flt 0, .flt 1, .flt 0, .flt 1] (some [![0, 0]])) (.scalar 1) [] R 0 = .running ⟨0, p0, 0⟩ := by
  have hS : Gen.genSetup (P := Fin 2 → ℝ) box2 (.geometry (Sdf.drectangle 0 1 0 1) [.flt 0, .flt 1, .flt 0, .flt 1] (some [![0, 0]])) (.scalar 1)
      [] = .ok ⟨Sdf.drectangle 0 1 0 1, fun _ => 1, [0, 1, 0, 1], 1, some [![0, 0]], true, (true, false)⟩ := by
    simp [Gen.genSetup, Gen.parseKwargs, Gen.getOpt, Gen.defaults, Gen.asNum, Gen.Num.val, Gen.selectVerbosity, Gen.unpackDomain,
      Gen.unpackSizing, Gen.checkBbox, Gen.checkFloats, Gen.mergeBbox, Gen.Rebuild, bind, Except.bind, pure, Except.pure, List.lookup]
  have hm : Gen.maxIterOf [] = .ok 50 := by
    simp [Gen.maxIterOf, Gen.getOpt, Gen.defaults, Gen.asNum, Gen.Num.val, bind, Except.bind, pure, Except.pure, List.lookup]
  have hc : gridCount 0 (1 + 1) 1 = 2 := by norm_num [gridCount]
  have hg : gridVals 0 1 2 = [0, 1] := by simp [gridVals, List.range_succ]
  have hax : mgridAxis 1 (0, 1) = .ok [0, 1] := by
    simp only [mgridAxis, hc]; norm_num; exact hg
  have hst : staggered2 1 [0, 1] [0, 1] = [![0, 0], ![0, 1], ![1, 1 / 2], ![1, 3 / 2]] := by
    norm_num [staggered2, shift, List.zipIdx]
  have hraw : rawPoints 1 2 1 0 0 [(0, 1), (0, 1)] true = .ok [![0, 0], ![0, 1], ![1, 1 / 2], ![1, 3 / 2]] := by
    rw [rawPoints_serial]
    simp only [createStaggeredGrid, hax, bind, Except.bind, pure, Except.pure, hst]
  have hin : inside (Sdf.drectangle 0 1 0 1) (0.1 * 1) [![0, 0], ![0, 1], ![1, 1 / 2], ![1, 3 / 2]] = [![0, 0], ![0, 1], ![1, 1 / 2]] := by
    norm_num [inside, Sdf.drectangle, List.filter_cons]
  have hfx : ∀ R : Generate.Rest 2 κ ρ, R.pfix = some [![1, 1]] → R.deps0 = 1 / 2 ^ 26 → Generate.fixOf R
      ⟨Sdf.drectangle 0 1 0 1, fun _ => 1, [0, 1, 0, 1], 1, some [![0, 0]], true, (true, false)⟩ = [![1, 1], ![0, 0]] := by
    intro R h1 h2
    simp only [Generate.fixOf, fixedPoints, unpackPfix, h1, h2]
    norm_num [Sdf.drectangle]
  have hini : serialPoints (d := 2) ⟨1, 0.1 * 1, [(0, 1), (0, 1)], Sdf.drectangle 0 1 0 1, fun _ _ => 1, [![1, 1], ![0, 0]], 0, true, false, fun _ => 1 / 2⟩ =
      .ok [![1, 1], ![0, 0], ![0, 0], ![0, 1], ![1, 1 / 2]] := by
    simp only [serialPoints, candidates, hraw, hin, bind, Except.bind, pure, Except.pure, rankR0m, localR0m, minOf, rankPoints, reject]
    norm_num [List.zipIdx, List.filter_cons]
  let R : Generate.Rest 2 κ ρ := ⟨some [![1, 1]], none, [], 0, 0.1, 0.1, false, ⟨true, true, true⟩, fun _ => 1 / 2, T, D, 1 / 2 ^ 52, 1 / 2 ^ 26⟩
  have hprep : Generate.prepare box2 (.geometry (Sdf.drectangle 0 1 0 1) [.flt 0, .flt 1, .flt 0, .flt 1] (some [![0, 0]])) (.scalar 1) [] R =
      .ok (Generate.envOf R ⟨Sdf.drectangle 0 1 0 1, fun _ => 1, [0, 1, 0, 1], 1, some [![0, 0]], true, (true, false)⟩ 50,
        [![1, 1], ![0, 0], ![0, 0], ![0, 1], ![1, 1 / 2]]) := by
    have h1 : Generate.initial R ⟨Sdf.drectangle 0 1 0 1, fun _ => 1, [0, 1, 0, 1], 1, some [![0, 0]], true, (true, false)⟩ =
        .ok [![1, 1], ![0, 0], ![0, 0], ![0, 1], ![1, 1 / 2]] := by
      simp only [Generate.initial, R, Generate.pairs]
      rw [hfx _ rfl rfl]
      exact hini
    simp only [Generate.prepare, hS, h1, hm, bind, Except.bind, pure, Except.pure]
    simp
  refine ⟨R, _, _, rfl, rfl, rfl, hprep, hD, ?_, ?_, ?_⟩
  · intro f hf
    have hf : f ∈ Generate.fixOf R ⟨Sdf.drectangle 0 1 0 1, fun _ => 1, [0, 1, 0, 1], 1, some [![0, 0]], true, (true, false)⟩ := hf
    rw [hfx R rfl rfl] at hf
    refine ⟨?_, by simp [Generate.envOf, R]⟩
    simp only [List.mem_cons, List.not_mem_nil, or_false] at hf
    rcases hf with rfl | rfl <;> norm_num [Generate.envOf, Sdf.drectangle]
  · norm_num [Generate.envOf, R, Sdf.drectangle]
  · simp only [Generate.generateMesh, hprep, MeshLoop.run]

example (T : Tools 2 κ ρ) := square_fixed (D := fun p => (p, [[0, 1, 2]])) T fun _ _ hx => hx

end

end SM.Initial
