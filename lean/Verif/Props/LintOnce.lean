import Verif.Props.Linter

/-!
# C80: the linted mesh has no overlapping entities left
-/

namespace SM.Linter

open Np Topology FixMesh

section general
variable {P : Type}

/-- The vertices of the row `r` are `vs`. -/
def Row (p : List P) (r : List ℕ) (vs : List P) : Prop := r.map (fun k => p[k]?) = vs.map some

/-- No two entities with different vertices, sharing a vertex, overlap. -/
def Apart (inside : P → List P → Bool) (cent : List P → P) (p : List P) (t : List (List ℕ)) : Prop :=
  ∀ r ∈ t, ∀ s ∈ t, ¬ r.Perm s → (∃ v, v ∈ r ∧ v ∈ s) → ∀ vr vs, Row p r vr → Row p s vs → inside (cent vr) vs = false

/-- `inside` and `cent` do not depend on the order in which the vertices of an entity are listed. -/
structure OrderFree (inside : P → List P → Bool) (cent : List P → P) : Prop where
  inside : ∀ c (a b : List P), a.Perm b → inside c a = inside c b
  cent : ∀ a b : List P, a.Perm b → cent a = cent b

theorem row_exists {p : List P} {r : List ℕ} (h : ∀ i ∈ r, i < p.length) : ∃ vs, Row p r vs := by
  obtain ⟨vs, hvs⟩ := take_ok h
  exact ⟨vs, take_spec.1 hvs⟩

/-- With distinct vertices, rows whose vertices agree up to order agree up to order. -/
theorem perm_of_points {p : List P} (hp : p.Nodup) {r s : List ℕ} (hr : ∀ i ∈ r, i < p.length) (hs : ∀ i ∈ s, i < p.length)
    (h : (r.map fun i => p[i]?).Perm (s.map fun i => p[i]?)) : r.Perm s := by
  classical
  rw [List.perm_iff_count]
  intro v
  by_cases hv : v < p.length
  · have key : ∀ l : List ℕ, (∀ i ∈ l, i < p.length) → l.count v = (l.map fun i => p[i]?).count (p[v]?) := by
      intro l hl
      induction l with
      | nil => rfl
      | cons a l ih =>
        have ha : a < p.length := hl a (by simp)
        rw [List.map_cons, List.count_cons, List.count_cons, ih fun i hi => hl i (by simp [hi])]
        congr 1
        have : (a = v) ↔ p[a]? = p[v]? := by
          constructor
          · rintro rfl; rfl
          · intro he
            rw [List.getElem?_eq_getElem ha, List.getElem?_eq_getElem hv, Option.some.injEq] at he
            exact (List.Nodup.getElem_inj_iff hp).1 he
        by_cases hav : a = v <;> simp [hav, ← this]
    rw [key r hr, key s hs]
    exact List.perm_iff_count.1 h _
  · rw [List.count_eq_zero.2 fun hm => hv (hr v hm), List.count_eq_zero.2 fun hm => hv (hs v hm)]

theorem row_perm {p q : List P} {r s : List ℕ} {vr vs : List P} (hr : Row p r vr) (hs : Row q s vs)
    (h : (r.map fun i => p[i]?).Perm (s.map fun i => q[i]?)) : vr.Perm vs := by
  rw [hr, hs] at h
  exact (List.map_perm_map_iff (Option.some_injective _)).1 h

variable {κ ρ K : Type} [LinearOrder κ] [LinearOrder ρ] [LT K] [DecidableLT K] [Zero K]

/-- `fix_mesh` keeps a mesh free of overlaps if it merges no vertices. -/
theorem apart_fixMesh {inside : P → List P → Bool} {cent : List P → P} (hof : OrderFree inside cent) {key : P → κ} {rk : List ℕ → ρ}
    (hrk : Function.Injective rk) {vol : List P → K} {p : List P} {t : List (List ℕ)} (hp : p ≠ []) (ht : InRange p t)
    (hk : (p.map key).Nodup) (ha : Apart inside cent p t) {p' : List P} {t' : List (List ℕ)} {jx : List ℕ}
    (h : fixMesh key rk vol p t true true = .ok (p', t', jx)) : Apart inside cent p' t' := by
  obtain ⟨p1, t1, jx1, h1, hc, -⟩ := fixMesh_run key hrk vol hp ht true true
  have hinj : ∀ x ∈ p, ∀ y ∈ p, key x = key y → x = y := fun x hx y hy e => List.inj_on_of_nodup_map hk hx hy e
  obtain ⟨p2, t2, jx2, h2, hfwd, -⟩ := C32_exact key hrk vol hp ht hinj true true
  rw [h] at h1 h2
  cases h1; cases h2
  have hpn : p.Nodup := List.Nodup.of_map _ hk
  intro r' hr' s' hs' hne ⟨v, hvr, hvs⟩ vr vs hvr' hvs'
  obtain ⟨r, hr, hrp⟩ := hfwd r' hr'
  obtain ⟨s, hs, hsp⟩ := hfwd s' hs'
  obtain ⟨wr, hwr⟩ := row_exists (ht r hr)
  obtain ⟨ws, hws⟩ := row_exists (ht s hs)
  have e1 := row_perm hvr' hwr hrp
  have e2 := row_perm hvs' hws hsp
  have hvl := hc.inRange r' hr' v hvr
  -- the shared vertex
  have hmem : ∀ (a : List ℕ) (a' : List ℕ), (a'.map fun i => p'[i]?).Perm (a.map fun i => p[i]?) → v ∈ a' →
      ∃ i ∈ a, p[i]? = p'[v]? := by
    intro a a' hperm hva
    have : p'[v]? ∈ a.map fun i => p[i]? := hperm.mem_iff.1 (List.mem_map.2 ⟨v, hva, rfl⟩)
    obtain ⟨i, hi, he⟩ := List.mem_map.1 this
    exact ⟨i, hi, he⟩
  obtain ⟨i, hi, hei⟩ := hmem r r' hrp hvr
  obtain ⟨j, hj, hej⟩ := hmem s s' hsp hvs
  have hij : i = j := by
    have hil := ht r hr i hi
    have hjl := ht s hs j hj
    have : p[i]? = p[j]? := hei.trans hej.symm
    rw [List.getElem?_eq_getElem hil, List.getElem?_eq_getElem hjl, Option.some.injEq] at this
    exact (List.Nodup.getElem_inj_iff hpn).1 this
  subst hij
  rw [hof.cent _ _ e1, hof.inside _ _ _ e2]
  refine ha r hr s hs ?_ ⟨i, hi, hj⟩ wr ws hwr hws
  intro hperm
  apply hne
  refine perm_of_points (List.Nodup.of_map _ hc.distinct) (hc.inRange r' hr') (hc.inRange s' hs') ?_
  exact hrp.trans ((hperm.map _).trans hsp.symm)

theorem npDelete_subset {α : Type} {a : List α} {idx : List ℕ} {x : α} (h : x ∈ npDelete a idx) : x ∈ a := by
  obtain ⟨ix, -, h2, h3⟩ := npDelete_selected a idx
  have : some x ∈ (npDelete a idx).map some := List.mem_map.2 ⟨x, h, rfl⟩
  rw [h3] at this
  obtain ⟨k, -, hk⟩ := List.mem_map.1 this
  exact List.mem_of_getElem? hk

theorem deleteBoundary_ok {key : P → κ} {rk : List ℕ → ρ} {vol qual : List P → K} {srt : List (ℕ × ℕ) → List (ℕ × ℕ)} {p p' : List P}
    {t t' : List (List ℕ)} {dim : ℕ} {mq : K} (h : deleteBoundaryEntities key rk vol qual srt p t dim mq = .ok (p', t')) :
    ∃ idx jx, fixMesh key rk vol p (npDelete t idx) true true = .ok (p', t', jx) := by
  unfold deleteBoundaryEntities at h
  simp only [bind, Except.bind, pure, Except.pure] at h
  split at h
  · simp at h
  split at h
  · simp at h
  split at h
  · simp at h
  split at h
  · simp at h
  rename_i x hx
  simp only [Except.ok.injEq, Prod.mk.injEq] at h
  obtain ⟨rfl, rfl⟩ := h
  exact ⟨_, _, hx⟩

theorem fixMesh_facts {key : P → κ} {rk : List ℕ → ρ} (hrk : Function.Injective rk) {vol : List P → K} {p p' : List P}
    {t t' : List (List ℕ)} {jx : List ℕ} (hp : p ≠ []) (ht : InRange p t) (h : fixMesh key rk vol p t true true = .ok (p', t', jx)) :
    Clean key p t p' t' ∧ (∀ v, v < p'.length ↔ ∃ r ∈ t', v ∈ r) ∧ ∀ n, (∀ r ∈ t, r.length = n) → ∀ r ∈ t', r.length = n := by
  obtain ⟨p1, t1, jx1, h1, hc, hu, -⟩ := fixMesh_run key hrk vol hp ht true true
  rw [h] at h1
  cases h1
  refine ⟨hc, fun v => ⟨hu rfl v, fun ⟨r, hr, hv⟩ => hc.inRange r hr v hv⟩, fun n hn r' hr' => ?_⟩
  obtain ⟨r, hr, hperm⟩ := hc.fwd r' hr'
  have := hperm.length_eq
  simp only [rowKeys, List.length_map] at this
  rw [this, hn r hr]

/-- `Apart`, in terms of `do_any_overlap`: on a mesh without duplicate entities the check reports nothing. -/
theorem overlap_nil {inside : P → List P → Bool} {cent : List P → P} {srt : List (ℕ × ℕ) → List (ℕ × ℕ)} (hsrt : IsArgsort srt)
    {p : List P} {t : List (List ℕ)} {dim : ℕ} (hw : ∀ r ∈ t, r.length = dim + 1) (hocc : ∀ v, v < p.length ↔ ∃ r ∈ t, v ∈ r)
    (hd : t.Pairwise fun r s => ¬ r.Perm s) (ha : Apart inside cent p t) : doAnyOverlap inside cent srt p t dim = .ok [] := by
  obtain ⟨out, h, hout⟩ := C49_overlap inside cent hsrt hw hocc
  rw [h]
  congr 1
  rw [List.eq_nil_iff_forall_not_mem]
  rintro ⟨i, j⟩ hij
  obtain ⟨hne, ri, rj, vi, vj, hi, hj, hs, hvi, hvj, hin⟩ := (hout i j).1 hij
  have : inside (cent vi) vj = false := by
    refine ha ri (List.mem_of_getElem? hi) rj (List.mem_of_getElem? hj) ?_ hs vi vj hvi hvj
    obtain ⟨hil, rfl⟩ := List.getElem?_eq_some_iff.1 hi
    obtain ⟨hjl, rfl⟩ := List.getElem?_eq_some_iff.1 hj
    rw [List.pairwise_iff_getElem] at hd
    rcases lt_or_gt_of_ne hne with hlt | hlt
    · exact hd i j hil hjl hlt
    · exact fun hp => hd j i hjl hil hlt hp.symm
  rw [this] at hin
  simp at hin

variable {K : Type} [LinearOrder K] [Zero K]

/-- Of every overlapping pair one entity is deleted. -/
theorem apart_kept {inside : P → List P → Bool} {cent : List P → P} {srt : List (ℕ × ℕ) → List (ℕ × ℕ)} (hsrt : IsArgsort srt)
    {p : List P} {ents kept : List (List ℕ)} {dim : ℕ} (hw : ∀ r ∈ ents, r.length = dim + 1)
    (hocc : ∀ v, v < p.length ↔ ∃ r ∈ ents, v ∈ r) {pairs : List (ℕ × ℕ)} (hpairs : doAnyOverlap inside cent srt p ents dim = .ok pairs)
    {q : List K} (hq : q.length = ents.length) (hkept : Selected (fun k => ¬ WorseInPair q pairs k) ents kept) :
    Apart inside cent p kept := by
  obtain ⟨out, h, hout⟩ := C49_overlap inside cent hsrt hw hocc
  rw [hpairs] at h
  cases h
  obtain ⟨ix, -, hix, hsel⟩ := hkept
  have hidx : ∀ r ∈ kept, ∃ k, ents[k]? = some r ∧ ¬ WorseInPair q pairs k := by
    intro r hr
    have : some r ∈ kept.map some := List.mem_map.2 ⟨r, hr, rfl⟩
    rw [hsel] at this
    obtain ⟨k, hk, he⟩ := List.mem_map.1 this
    exact ⟨k, he, ((hix k).1 hk).2⟩
  intro r hr s hs hne hsh vr vs hvr hvs
  obtain ⟨i, hi, hwi⟩ := hidx r hr
  obtain ⟨j, hj, hwj⟩ := hidx s hs
  by_contra hcon
  have hcon : inside (cent vr) vs = true := by simpa using hcon
  have hij : i ≠ j := by
    rintro rfl
    rw [hi] at hj
    cases hj
    exact hne (List.Perm.refl _)
  have hmem : (i, j) ∈ pairs := (hout i j).2 ⟨hij, r, s, vr, vs, hi, hj, hsh, hvr, hvs, hcon⟩
  obtain ⟨hil, -⟩ := List.getElem?_eq_some_iff.1 hi
  obtain ⟨hjl, -⟩ := List.getElem?_eq_some_iff.1 hj
  have gi := List.getElem?_eq_getElem (hq ▸ hil : i < q.length)
  have gj := List.getElem?_eq_getElem (hq ▸ hjl : j < q.length)
  rcases le_or_gt q[i] q[j] with hle | hlt
  · exact hwi ⟨i, j, _, _, hmem, gi, gj, Or.inl ⟨rfl, hle⟩⟩
  · exact hwj ⟨i, j, _, _, hmem, gi, gj, Or.inr ⟨rfl, hlt⟩⟩

/-- **C80.** If `linter` returns on a mesh in which exactly the listed vertices are used and its clean-up merges no vertices, then on the
returned mesh `do_any_overlap` reports nothing. -/
theorem lint_once {inside : P → List P → Bool} {cent : List P → P} (hof : OrderFree inside cent) {qual vol : List P → K}
    {key key' : P → κ} {rk : List ℕ → ρ} (hrk : Function.Injective rk) {srt : List (ℕ × ℕ) → List (ℕ × ℕ)} (hsrt : IsArgsort srt)
    {width : ℕ} {p p' : List P} {ents t' : List (List ℕ)} {dim : ℕ} {minQual : K} (hw : ∀ r ∈ ents, r.length = dim + 1)
    (hocc : ∀ v, v < p.length ↔ ∃ r ∈ ents, v ∈ r) (hk : (p.map key).Nodup) (hk' : (p.map key').Nodup)
    (h : linter inside cent qual vol key key' rk srt width p ents dim minQual = .ok (p', t')) :
    doAnyOverlap inside cent srt p' t' dim = .ok [] := by
  obtain ⟨q, pairs, kept, p1, t1, jx, hq, hpairs, hsel, hfix, h2, h3, -⟩ := C49_linter h
  have hql : q.length = ents.length := (mapM_forall₂.1 hq).length_eq.symm
  have hsub : ∀ r ∈ kept, r ∈ ents := by
    obtain ⟨ix, -, -, he⟩ := hsel
    intro r hr
    have : some r ∈ kept.map some := List.mem_map.2 ⟨r, hr, rfl⟩
    rw [he] at this
    obtain ⟨k, -, hk⟩ := List.mem_map.1 this
    exact List.mem_of_getElem? hk
  have hp : p ≠ [] := by
    rintro rfl
    simp [fixMesh, bind, Except.bind, throw, throwThe, MonadExceptOf.throw] at hfix
  have hr0 : InRange p kept := fun r hr i hi => (hocc i).2 ⟨r, hsub r hr, hi⟩
  have ha0 := apart_kept hsrt hw hocc hpairs hql hsel
  have ha1 := apart_fixMesh hof hrk hp hr0 hk ha0 hfix
  obtain ⟨hc1, ho1, hl1⟩ := fixMesh_facts hrk hp hr0 hfix
  have hw1 := hl1 (dim + 1) fun r hr => hw r (hsub r hr)
  by_cases hd : dim = 2
  · obtain ⟨idx, jx2, hf2⟩ := deleteBoundary_ok (h2 hd)
    have hp1 : p1 ≠ [] := by
      rintro rfl
      simp [fixMesh, bind, Except.bind, throw, throwThe, MonadExceptOf.throw] at hf2
    have hr1 : InRange p1 (npDelete t1 idx) := fun r hr i hi => hc1.inRange r (npDelete_subset hr) i hi
    have hk1 : (p1.map key').Nodup := by
      have hn : p1.Nodup := List.Nodup.of_map _ hc1.distinct
      exact hn.map_on fun x hx y hy e => List.inj_on_of_nodup_map hk' (hc1.verts x hx) (hc1.verts y hy) e
    have ha2 := apart_fixMesh hof hrk hp1 hr1 hk1
      (fun r hr s hs => ha1 r (npDelete_subset hr) s (npDelete_subset hs)) hf2
    obtain ⟨hc2, ho2, hl2⟩ := fixMesh_facts hrk hp1 hr1 hf2
    exact overlap_nil hsrt (hl2 _ fun r hr => hw1 r (npDelete_subset hr)) ho2 hc2.rows ha2
  · obtain ⟨rfl, rfl⟩ := h3 hd
    exact overlap_nil hsrt hw1 ho1 hc1.rows ha1

end general

/-! ### triangles and tetrahedra -/

section simplices
variable {K : Type} [Field K] [LinearOrder K] [IsStrictOrderedRing K]

theorem centroid_perm {d : ℕ} (a b : List (Fin d → K)) (h : a.Perm b) : Simplex.centroid a d = Simplex.centroid b d := by
  ext k
  simp only [Simplex.centroid]
  rw [(h.map fun v => v k).sum_eq]

/-- Barycentric form of the test. -/
theorem inside2_iff (c a b e : Fin 2 → K) :
    inside2 c [a, b, e] = true ↔ vol2 a b e ≠ 0 ∧ (0 ≤ vol2 c b e / vol2 a b e ∧ vol2 c b e / vol2 a b e ≤ 1) ∧
      (0 ≤ vol2 a c e / vol2 a b e ∧ vol2 a c e / vol2 a b e ≤ 1) ∧ (0 ≤ vol2 a b c / vol2 a b e ∧ vol2 a b c / vol2 a b e ≤ 1) := by
  have hd : Simplex.den2 a b e = 2 * vol2 a b e := by unfold Simplex.den2 vol2; ring
  by_cases hv : vol2 a b e = 0
  · simp [inside2, Simplex.vertexInEntity2, hd, hv]
  · have h1 : ((b 1 - e 1) * (c 0 - e 0) + (e 0 - b 0) * (c 1 - e 1)) / Simplex.den2 a b e = vol2 c b e / vol2 a b e := by
      rw [hd, div_eq_div_iff (mul_ne_zero two_ne_zero hv) hv]; unfold vol2; ring
    have h2 : ((e 1 - a 1) * (c 0 - e 0) + (a 0 - e 0) * (c 1 - e 1)) / Simplex.den2 a b e = vol2 a c e / vol2 a b e := by
      rw [hd, div_eq_div_iff (mul_ne_zero two_ne_zero hv) hv]; unfold vol2; ring
    have h3 : 1 - vol2 c b e / vol2 a b e - vol2 a c e / vol2 a b e = vol2 a b c / vol2 a b e := by
      rw [eq_div_iff hv, sub_mul, sub_mul, div_mul_cancel₀ _ hv, div_mul_cancel₀ _ hv]; unfold vol2; ring
    have hd0 : Simplex.den2 a b e ≠ 0 := by rw [hd]; exact mul_ne_zero two_ne_zero hv
    simp only [inside2, Simplex.vertexInEntity2, if_neg hd0, h1, h2, h3, Bool.and_eq_true, decide_eq_true_eq]
    tauto

theorem vol2_cycle (a b c : Fin 2 → K) : vol2 a b c = vol2 b c a := by unfold vol2; ring

/-- Exchanging the first two vertices. -/
theorem inside2_swap (c a b e : Fin 2 → K) : inside2 c [a, b, e] = inside2 c [b, a, e] := by
  rw [Bool.eq_iff_iff, inside2_iff, inside2_iff, vol2_swap a b e, vol2_swap a c e, vol2_swap c b e, vol2_swap a b c]
  simp only [neg_div_neg_eq, Ne, neg_eq_zero]
  tauto

/-- Cyclic change of the vertices. -/
theorem inside2_cycle (c a b e : Fin 2 → K) : inside2 c [a, b, e] = inside2 c [b, e, a] := by
  rw [Bool.eq_iff_iff, inside2_iff, inside2_iff, vol2_cycle a b e, vol2_cycle a c e, vol2_cycle a b c,
    show vol2 c b e = vol2 b e c from vol2_cycle c b e]
  tauto

/-- The point-in-triangle test does not depend on the order of the vertices. -/
theorem orderFree2 : OrderFree inside2 (Simplex.centroid · 2 : List (Fin 2 → K) → Fin 2 → K) := by
  refine ⟨?_, centroid_perm⟩
  intro c l m h
  match m, h with
  | [a, b, e], h =>
    rw [← List.mem_permutations'] at h
    simp only [List.permutations', List.permutations'Aux, List.flatMap_cons, List.flatMap_nil, List.map_cons, List.map_nil,
      List.append_nil, List.cons_append, List.nil_append, List.mem_cons, List.not_mem_nil, or_false] at h
    rcases h with rfl | rfl | rfl | rfl | rfl | rfl
    · rfl
    · exact inside2_swap c b a e
    · exact (inside2_cycle c a b e).symm
    · rw [inside2_swap, inside2_cycle, inside2_cycle, inside2_cycle, inside2_cycle]
    · exact inside2_cycle c e a b
    · rw [inside2_swap, inside2_cycle, inside2_cycle]
  | [], h => simp [List.perm_nil.1 h]
  | [a], h => rw [List.perm_singleton.1 h]
  | [a, b], h =>
    have := h.length_eq
    match l, this with
    | [x, y], _ => simp [inside2]
  | a :: b :: e :: f :: m, h =>
    have := h.length_eq
    match l, this with
    | x :: y :: z :: w :: l, _ => simp [inside2]

theorem sgn_swap (a b e f : Fin 3 → K) : Simplex.sgn b a e f = - Simplex.sgn a b e f ∧ Simplex.sgn a e b f = - Simplex.sgn a b e f ∧
    Simplex.sgn a b f e = - Simplex.sgn a b e f := by
  simp only [Simplex.sgn, Simplex.det4_homog]
  refine ⟨?_, ?_, ?_⟩
  all_goals
    rw [← Left.sign_neg]
    congr 1
    simp [vol3, cross]
    ring

theorem inside3_swaps (c a b e f : Fin 3 → K) : inside3 c [a, b, e, f] = inside3 c [b, a, e, f] ∧
    inside3 c [a, b, e, f] = inside3 c [a, e, b, f] ∧ inside3 c [a, b, e, f] = inside3 c [a, b, f, e] := by
  simp only [inside3]
  refine ⟨?_, ?_, ?_⟩
  · rw [Bool.eq_iff_iff, Simplex.inEntity3_iff, Simplex.inEntity3_iff]
    rw [(sgn_swap a b e f).1, (sgn_swap a c e f).1, (sgn_swap c b e f).1, (sgn_swap a b c f).1, (sgn_swap a b e c).1]
    simp only [neg_inj, Ne, SignType.neg_eq_zero_iff]
    tauto
  · rw [Bool.eq_iff_iff, Simplex.inEntity3_iff, Simplex.inEntity3_iff]
    rw [(sgn_swap a b e f).2.1, (sgn_swap c b e f).2.1, (sgn_swap a b c f).2.1, (sgn_swap a c e f).2.1, (sgn_swap a b e c).2.1]
    simp only [neg_inj, Ne, SignType.neg_eq_zero_iff]
    tauto
  · rw [Bool.eq_iff_iff, Simplex.inEntity3_iff, Simplex.inEntity3_iff]
    rw [(sgn_swap a b e f).2.2, (sgn_swap c b e f).2.2, (sgn_swap a c e f).2.2, (sgn_swap a b e c).2.2, (sgn_swap a b c f).2.2]
    simp only [neg_inj, Ne, SignType.neg_eq_zero_iff]
    tauto

/-- The point-in-tetrahedron test does not depend on the order of the vertices. -/
theorem orderFree3 : OrderFree inside3 (Simplex.centroid · 3 : List (Fin 3 → K) → Fin 3 → K) := by
  refine ⟨?_, centroid_perm⟩
  intro c l m h
  have s1 : ∀ a b e f : Fin 3 → K, inside3 c [a, b, e, f] = inside3 c [b, a, e, f] := fun a b e f => (inside3_swaps c a b e f).1
  have s2 : ∀ a b e f : Fin 3 → K, inside3 c [a, b, e, f] = inside3 c [a, e, b, f] := fun a b e f => (inside3_swaps c a b e f).2.1
  have s3 : ∀ a b e f : Fin 3 → K, inside3 c [a, b, e, f] = inside3 c [a, b, f, e] := fun a b e f => (inside3_swaps c a b e f).2.2
  match m, h with
  | [a, b, e, f], h =>
    rw [← List.mem_permutations'] at h
    simp only [List.permutations', List.permutations'Aux, List.flatMap_cons, List.flatMap_nil, List.map_cons, List.map_nil,
      List.append_nil, List.cons_append, List.nil_append, List.mem_cons, List.not_mem_nil, or_false] at h
    rcases h with rfl | rfl | rfl | rfl | rfl | rfl | rfl | rfl | rfl | rfl | rfl | rfl | rfl | rfl | rfl | rfl | rfl | rfl | rfl | rfl |
      rfl | rfl | rfl | rfl
    all_goals first | rfl | simp only [s1, s2, s3]
  | [], h => simp [List.perm_nil.1 h]
  | [a], h => rw [List.perm_singleton.1 h]
  | [a, b], h =>
    have := h.length_eq
    match l, this with
    | [x, y], _ => simp [inside3]
  | [a, b, e], h =>
    have := h.length_eq
    match l, this with
    | [x, y, z], _ => simp [inside3]
  | a :: b :: e :: f :: g :: m, h =>
    have := h.length_eq
    match l, this with
    | x :: y :: z :: w :: u :: l, _ => simp [inside3]

variable {κ ρ : Type} [LinearOrder κ] [LinearOrder ρ]

/-- **C80 (triangles).** If `linter` returns on a mesh of triangles in which exactly the listed vertices are used, and no two vertices have the
same key in its clean-up (nothing is merged), then `do_any_overlap` reports nothing on the returned mesh. -/
theorem C80_triangles {qual vol : List (Fin 2 → K) → K} {key key' : (Fin 2 → K) → κ} {rk : List ℕ → ρ} (hrk : Function.Injective rk)
    {srt : List (ℕ × ℕ) → List (ℕ × ℕ)} (hsrt : IsArgsort srt) {width : ℕ} {p p' : List (Fin 2 → K)} {ents t' : List (List ℕ)}
    {minQual : K} (hw : ∀ r ∈ ents, r.length = 3) (hocc : ∀ v, v < p.length ↔ ∃ r ∈ ents, v ∈ r) (hk : (p.map key).Nodup)
    (hk' : (p.map key').Nodup)
    (h : linter inside2 (Simplex.centroid · 2) qual vol key key' rk srt width p ents 2 minQual = .ok (p', t')) :
    doAnyOverlap inside2 (Simplex.centroid · 2) srt p' t' 2 = .ok [] :=
  lint_once orderFree2 hrk hsrt hw hocc hk hk' h

/-- **C80 (tetrahedra).** -/
theorem C80_tetrahedra {qual vol : List (Fin 3 → K) → K} {key key' : (Fin 3 → K) → κ} {rk : List ℕ → ρ} (hrk : Function.Injective rk)
    {srt : List (ℕ × ℕ) → List (ℕ × ℕ)} (hsrt : IsArgsort srt) {width : ℕ} {p p' : List (Fin 3 → K)} {ents t' : List (List ℕ)}
    {minQual : K} (hw : ∀ r ∈ ents, r.length = 4) (hocc : ∀ v, v < p.length ↔ ∃ r ∈ ents, v ∈ r) (hk : (p.map key).Nodup)
    (hk' : (p.map key').Nodup)
    (h : linter inside3 (Simplex.centroid · 3) qual vol key key' rk srt width p ents 3 minQual = .ok (p', t')) :
    doAnyOverlap inside3 (Simplex.centroid · 3) srt p' t' 3 = .ok [] :=
  lint_once orderFree3 hrk hsrt hw hocc hk hk' h

end simplices

/-- The hypotheses of `C80_triangles` are met by the mesh of `Props/Linter.lean`, on which `linter` runs and removes one of two overlapping
triangles. -/
example : (exP.map fun q => [q 0, q 1]).Nodup ∧ (∀ r ∈ exT, r.length = 3) ∧
    (∀ v, v < exP.length ↔ ∃ r ∈ exT, v ∈ r) ∧ doAnyOverlap inside2 (Simplex.centroid · 2) exSort exP exT 2 ≠ .ok [] ∧
    ∃ p' t', linter inside2 (Simplex.centroid · 2) exQual FixMesh.rowVol2 (fun q => [q 0, q 1]) (fun q => [q 0, q 1])
      (fun r => r) exSort 2 exP exT 2 (1 / 10) = .ok (p', t') ∧ t'.length = 2 := by
  refine ⟨by decide +kernel, by decide, by simp [exP, exT]; omega, by decide +kernel, ?_⟩
  have h : ((linter inside2 (Simplex.centroid · 2) exQual FixMesh.rowVol2 (fun q => [q 0, q 1]) (fun q => [q 0, q 1])
      (fun r => r) exSort 2 exP exT 2 (1 / 10)).map fun x => x.2.length) = .ok 2 := by decide +kernel
  cases hl : linter inside2 (Simplex.centroid · 2) exQual FixMesh.rowVol2 (fun q => [q 0, q 1]) (fun q => [q 0, q 1])
      (fun r => r) exSort 2 exP exT 2 (1 / 10) with
  | error e => rw [hl] at h; simp [Except.map] at h
  | ok x =>
    rw [hl] at h
    exact ⟨x.1, x.2, rfl, by simpa [Except.map] using h⟩

end SM.Linter
