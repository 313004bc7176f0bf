import Verif.Model.FixMesh
import Verif.Lemmas.Np

namespace SM.Np

variable {α : Type}

theorem mapM_forall₂ {β γ : Type} {f : β → Except String γ} {l : List β} {m : List γ} :
    l.mapM f = .ok m ↔ List.Forall₂ (fun x y => f x = .ok y) l m := by
  induction l generalizing m with
  | nil => simp [pure, Except.pure, eq_comm]
  | cons x xs ih =>
    rw [List.mapM_cons]
    cases hx : f x with
    | error e =>
      simp only [bind, Except.bind, reduceCtorEq, false_iff]
      intro h
      cases h with
      | cons h1 _ => rw [hx] at h1; cases h1
    | ok y =>
      cases hm : xs.mapM f with
      | error e =>
        simp only [bind, Except.bind, reduceCtorEq, false_iff]
        intro h
        cases h with
        | cons _ h2 => have := ih.2 h2; rw [hm] at this; cases this
      | ok ys =>
        simp only [bind, Except.bind, pure, Except.pure, Except.ok.injEq]
        constructor
        · rintro rfl; exact List.Forall₂.cons hx (ih.1 hm)
        · intro h
          cases h with
          | cons h1 h2 =>
            rw [hx] at h1; cases h1
            have := ih.2 h2; rw [hm] at this; cases this; rfl

theorem item_ok {a : List α} {i : ℕ} {x : α} : item a i = .ok x ↔ a[i]? = some x := by
  unfold item; cases a[i]? <;> simp

/-- Meaning of fancy indexing. -/
theorem take_spec {a : List α} {ix : List ℕ} {b : List α} :
    Np.take a ix = .ok b ↔ ix.map (fun i => a[i]?) = b.map some := by
  unfold Np.take
  rw [mapM_forall₂]
  simp only [item_ok]
  induction ix generalizing b with
  | nil => cases b <;> simp
  | cons i ix ih => cases b <;> simp [ih]

theorem forall₂_left {β γ : Type} {R : β → γ → Prop} {l : List β} {m : List γ}
    (h : List.Forall₂ R l m) : ∀ x ∈ l, ∃ y ∈ m, R x y := by
  induction h with
  | nil => simp
  | cons h _ ih =>
    intro x hx
    rcases List.mem_cons.1 hx with rfl | hx
    · exact ⟨_, by simp, h⟩
    · obtain ⟨y, hy, h⟩ := ih x hx
      exact ⟨y, by simp [hy], h⟩

theorem forall₂_right {β γ : Type} {R : β → γ → Prop} {l : List β} {m : List γ}
    (h : List.Forall₂ R l m) : ∀ y ∈ m, ∃ x ∈ l, R x y := by
  induction h with
  | nil => simp
  | cons h _ ih =>
    intro x hx
    rcases List.mem_cons.1 hx with rfl | hx
    · exact ⟨_, by simp, h⟩
    · obtain ⟨y, hy, h⟩ := ih x hx
      exact ⟨y, by simp [hy], h⟩

theorem take_ok {a : List α} {ix : List ℕ} (h : ∀ i ∈ ix, i < a.length) :
    ∃ b, Np.take a ix = .ok b := by
  refine ⟨ix.attach.map fun i => a[i.1]'(h i.1 i.2), take_spec.2 ?_⟩
  rw [List.map_map]
  conv_lhs => rw [← List.attach_map_subtype_val ix]
  rw [List.map_map]
  apply List.map_congr_left
  intro i _
  simp [List.getElem?_eq_getElem (h i.1 i.2)]

theorem take_length {a : List α} {ix : List ℕ} {b : List α} (h : Np.take a ix = .ok b) :
    b.length = ix.length := by
  have := congrArg List.length (take_spec.1 h); simpa using this.symm

theorem take_get {a : List α} {ix : List ℕ} {b : List α} (h : Np.take a ix = .ok b) {n i : ℕ}
    (hn : ix[n]? = some i) : b[n]? = a[i]? := by
  have := congrArg (fun l => l[n]?) (take_spec.1 h)
  simp only [List.getElem?_map, hn, Option.map_some] at this
  cases hb : b[n]? with
  | none => rw [hb] at this; simp at this
  | some x => rw [hb] at this; simp at this; rw [this]

theorem mapM_exists {β γ : Type} {f : β → Except String γ} {l : List β}
    (h : ∀ x ∈ l, ∃ y, f x = .ok y) : ∃ m, l.mapM f = .ok m := by
  induction l with
  | nil => exact ⟨[], rfl⟩
  | cons x xs ih =>
    obtain ⟨y, hy⟩ := h x (by simp)
    obtain ⟨m, hm⟩ := ih fun z hz => h z (by simp [hz])
    exact ⟨y :: m, by rw [List.mapM_cons, hy, hm]; rfl⟩

end SM.Np

namespace SM.FixMesh
open Np

variable {P κ ρ K : Type} [LinearOrder κ] [LinearOrder ρ] [LT K] [DecidableLT K] [Zero K]

theorem swap01_perm {α : Type} (r : List α) : (swap01 r).Perm r := by
  match r with
  | [] => exact List.Perm.refl _
  | [a] => exact List.Perm.refl _
  | a :: b :: r => exact List.Perm.swap a b r

/-- The keys of the vertices of an entity. -/
def rowKeys (key : P → κ) (p : List P) (r : List ℕ) : List (Option κ) :=
  r.map fun i => (p[i]?).map key

/-- The first stage: snapping. -/
theorem stage1 (key : P → κ) (p : List P) :
    ∃ p1, Np.take p (uniqIndex (p.map key)) = .ok p1 ∧
      p1.map key = uniqBy id (p.map key) ∧ (∀ x ∈ p1, x ∈ p) ∧
      ∀ i, i < p.length → ∃ j, (uniqInverse (p.map key))[i]? = some j ∧ j < p1.length ∧
        (p1[j]?).map key = (p[i]?).map key := by
  have hr : ∀ i ∈ uniqIndex (p.map key), i < p.length := by
    intro i hi
    obtain ⟨k, hk, rfl⟩ := List.mem_map.1 hi
    have := List.idxOf_lt_length_iff.2 (uniqId_mem.1 hk)
    simpa using this
  obtain ⟨p1, h1⟩ := take_ok (a := p) hr
  have hs := take_spec.1 h1
  have hkeys : p1.map key = uniqBy id (p.map key) := by
    have h2 := congrArg (List.map (Option.map key)) hs
    simp only [List.map_map, uniqIndex] at h2
    have h3 : (uniqBy id (p.map key)).map some = (p1.map key).map some := by
      rw [List.map_map, show (some ∘ key : P → Option κ) = (Option.map key ∘ some) from rfl, ← h2]
      apply List.map_congr_left
      intro k hk
      have hl := List.idxOf_lt_length_iff.2 (uniqId_mem.1 hk)
      have hl' : (p.map key).idxOf k < p.length := by simpa using hl
      have := List.getElem_idxOf hl
      simp only [Function.comp_apply, List.getElem?_eq_getElem hl', Option.map_some]
      rw [List.getElem_map] at this
      rw [this]
    exact (List.map_injective_iff.2 (Option.some_injective _) h3).symm
  refine ⟨p1, h1, hkeys, ?_, ?_⟩
  · intro x hx
    have : some x ∈ p1.map some := List.mem_map.2 ⟨x, hx, rfl⟩
    rw [← hs] at this
    obtain ⟨i, _, hi⟩ := List.mem_map.1 this
    exact List.mem_of_getElem? hi
  · intro i hi
    have hk : key p[i] ∈ uniqBy id (p.map key) :=
      uniqId_mem.2 (List.mem_map.2 ⟨_, List.getElem_mem hi, rfl⟩)
    have hl := List.idxOf_lt_length_iff.2 hk
    refine ⟨(uniqBy id (p.map key)).idxOf (key p[i]), ?_, ?_, ?_⟩
    · simp [uniqInverse, List.getElem?_eq_getElem hi]
    · have e := congrArg List.length hkeys
      rw [List.length_map] at e; rw [e]; exact hl
    · have e : (p1.map key)[(uniqBy id (p.map key)).idxOf (key p[i])]? = some (key p[i]) := by
        rw [hkeys, List.getElem?_eq_getElem hl, List.getElem_idxOf]
      rw [List.getElem?_map] at e
      rw [e, List.getElem?_eq_getElem hi]; rfl

/-- Description of the mesh before orientation. -/
structure Clean (key : P → κ) (p : List P) (t : List (List ℕ)) (p' : List P) (t' : List (List ℕ)) :
    Prop where
  verts : ∀ x ∈ p', x ∈ p
  distinct : (p'.map key).Nodup
  inRange : ∀ r ∈ t', ∀ i ∈ r, i < p'.length
  rows : t'.Pairwise fun r s => ¬ r.Perm s
  fwd : ∀ r' ∈ t', ∃ r ∈ t, (rowKeys key p' r').Perm (rowKeys key p r)
  bwd : ∀ r ∈ t, ∃ r' ∈ t', (rowKeys key p' r').Perm (rowKeys key p r)

theorem stage2 {key : P → κ} {rk : List ℕ → ρ} (hrk : Function.Injective rk) {p : List P}
    {t : List (List ℕ)} (ht : ∀ r ∈ t, ∀ i ∈ r, i < p.length) {p1 : List P}
    (hp1 : Np.take p (uniqIndex (p.map key)) = .ok p1) :
    ∃ t1, t.mapM (Np.take (uniqInverse (p.map key))) = .ok t1 ∧
      Clean key p t p1 (uniqBy rk (t1.map sortRow)) := by
  obtain ⟨p1', h1, h2, h3, h4⟩ := stage1 key p
  rw [hp1] at h1; cases h1
  have hlen : (uniqInverse (p.map key)).length = p.length := by simp [uniqInverse]
  obtain ⟨t1, ht1⟩ := mapM_exists (f := Np.take (uniqInverse (p.map key))) (l := t)
    fun r hr => take_ok fun i hi => by rw [hlen]; exact ht r hr i hi
  have hF := mapM_forall₂.1 ht1
  have row : ∀ r r1, (∀ i ∈ r, i < p.length) → Np.take (uniqInverse (p.map key)) r = .ok r1 →
      rowKeys key p1 r1 = rowKeys key p r ∧ ∀ j ∈ r1, j < p1.length := by
    intro r r1 hr h
    have hs := take_spec.1 h
    induction r generalizing r1 with
    | nil =>
      cases r1 with
      | nil => simp [rowKeys]
      | cons _ _ => simp at hs
    | cons i r ih =>
      cases r1 with
      | nil => simp at hs
      | cons j r1 =>
        simp only [List.map_cons, List.cons.injEq] at hs
        obtain ⟨j', e1, e2, e3⟩ := h4 i (hr i (by simp))
        obtain ⟨ih1, ih2⟩ := ih r1 (fun i hi => hr i (by simp [hi])) (take_spec.2 hs.2) hs.2
        rw [hs.1] at e1; cases e1
        constructor
        · simp only [rowKeys, List.map_cons] at ih1 ⊢
          rw [ih1, e3]
        · intro k hk
          rcases List.mem_cons.1 hk with rfl | hk
          · exact e2
          · exact ih2 k hk
  have rowS : ∀ r r1, (∀ i ∈ r, i < p.length) → Np.take (uniqInverse (p.map key)) r = .ok r1 →
      (rowKeys key p1 (sortRow r1)).Perm (rowKeys key p r) := by
    intro r r1 hr h
    rw [← (row r r1 hr h).1]
    exact (sortRow_perm r1).map _
  have mem : ∀ r', r' ∈ uniqBy rk (t1.map sortRow) ↔ ∃ r1 ∈ t1, sortRow r1 = r' := by
    intro r'; rw [mem_uniqBy hrk, List.mem_map]
  refine ⟨t1, ht1, h3, ?_, ?_, ?_, ?_, ?_⟩
  · rw [h2]; exact uniqBy_nodup _ _
  · intro r' hr' i hi
    obtain ⟨r1, hr1, rfl⟩ := (mem r').1 hr'
    obtain ⟨r, hr, h⟩ := forall₂_right hF r1 hr1
    exact (row r r1 (ht r hr) h).2 i ((sortRow_perm r1).mem_iff.1 hi)
  · have hn := uniqBy_nodup rk (t1.map sortRow)
    refine List.Pairwise.imp_of_mem ?_ hn
    intro r s hr hs hne hperm
    obtain ⟨r1, -, rfl⟩ := (mem r).1 hr
    obtain ⟨s1, -, rfl⟩ := (mem s).1 hs
    exact hne (sortRow_eq_iff.2 ((sortRow_perm r1).symm.trans (hperm.trans (sortRow_perm s1))))
  · intro r' hr'
    obtain ⟨r1, hr1, rfl⟩ := (mem r').1 hr'
    obtain ⟨r, hr, h⟩ := forall₂_right hF r1 hr1
    exact ⟨r, hr, rowS r r1 (ht r hr) h⟩
  · intro r hr
    obtain ⟨r1, hr1, h⟩ := forall₂_left hF r hr
    exact ⟨sortRow r1, (mem _).2 ⟨r1, hr1, rfl⟩, rowS r r1 (ht r hr) h⟩

/-- Deleting unused vertices keeps the mesh clean. -/
theorem stage3 {key : P → κ} {p : List P} {t : List (List ℕ)} {p1 : List P} {t2 : List (List ℕ)}
    (hc : Clean key p t p1 t2) :
    ∃ p3, Np.take p1 (uniqBy id t2.flatten) = .ok p3 ∧
      Clean key p t p3 (t2.map fun r => r.map fun v => (uniqBy id t2.flatten).idxOf v) ∧
      ∀ i < p3.length, ∃ r ∈ (t2.map fun r => r.map fun v => (uniqBy id t2.flatten).idxOf v), i ∈ r := by
  set pix := uniqBy id t2.flatten with hpix
  have hmem : ∀ r ∈ t2, ∀ v ∈ r, v ∈ pix := fun r hr v hv =>
    uniqId_mem.2 (List.mem_flatten.2 ⟨r, hr, hv⟩)
  have hnd : pix.Nodup := uniqBy_nodup _ _
  obtain ⟨p3, h3⟩ := take_ok (a := p1) (ix := pix) fun i hi => by
    obtain ⟨r, hr, hir⟩ := List.mem_flatten.1 (uniqId_mem.1 hi)
    exact hc.inRange r hr i hir
  have hs := take_spec.1 h3
  have hl := take_length h3
  have hidx : ∀ v ∈ pix, pix.idxOf v < p3.length ∧ p3[pix.idxOf v]? = p1[v]? := by
    intro v hv
    have h1 := List.idxOf_lt_length_iff.2 hv
    refine ⟨hl ▸ h1, take_get h3 ?_⟩
    rw [List.getElem?_eq_getElem h1, List.getElem_idxOf]
  have hrow : ∀ r ∈ t2, rowKeys key p3 (r.map fun v => pix.idxOf v) = rowKeys key p1 r := by
    intro r hr
    simp only [rowKeys, List.map_map]
    apply List.map_congr_left
    intro v hv
    simp only [Function.comp_apply]
    rw [(hidx v (hmem r hr v hv)).2]
  refine ⟨p3, h3, ⟨?_, ?_, ?_, ?_, ?_, ?_⟩, ?_⟩
  · intro x hx
    have : some x ∈ p3.map some := List.mem_map.2 ⟨x, hx, rfl⟩
    rw [← hs] at this
    obtain ⟨i, _, hi⟩ := List.mem_map.1 this
    exact hc.verts x (List.mem_of_getElem? hi)
  · have hd := hc.distinct
    rw [List.nodup_iff_injective_getElem] at hd
    rw [List.nodup_iff_injective_getElem]
    intro a b hab
    simp only at hab
    have get : ∀ (c : Fin (p3.map key).length), ∃ (i : ℕ) (h : i < (p1.map key).length),
        pix[c.1]? = some i ∧ (p1.map key)[i] = (p3.map key)[c.1] := by
      intro c
      have hc3 : c.1 < p3.length := lt_of_lt_of_eq c.2 (List.length_map _)
      have hc' : c.1 < pix.length := hl ▸ hc3
      have hg := take_get h3 (List.getElem?_eq_getElem hc')
      rw [List.getElem?_eq_getElem hc3] at hg
      obtain ⟨hi, he⟩ := List.getElem?_eq_some_iff.1 hg.symm
      refine ⟨pix[c.1], by simpa using hi, List.getElem?_eq_getElem hc', ?_⟩
      simp [he]
    obtain ⟨i, hi, hai, ei⟩ := get a
    obtain ⟨j, hj, hbj, ej⟩ := get b
    have : (⟨i, hi⟩ : Fin (p1.map key).length) = ⟨j, hj⟩ := hd (by simp only; rw [ei, ej, hab])
    have hij : i = j := by simpa using this
    subst hij
    have ha' : a.1 < pix.length := (List.getElem?_eq_some_iff.1 hai).1
    have hb' : b.1 < pix.length := (List.getElem?_eq_some_iff.1 hbj).1
    rw [List.getElem?_eq_getElem ha'] at hai
    rw [List.getElem?_eq_getElem hb'] at hbj
    have := (List.Nodup.getElem_inj_iff hnd).1 (Option.some.inj (hai.trans hbj.symm))
    exact Fin.ext this
  · intro r' hr' i hi
    obtain ⟨r, hr, rfl⟩ := List.mem_map.1 hr'
    obtain ⟨v, hv, rfl⟩ := List.mem_map.1 hi
    exact (hidx v (hmem r hr v hv)).1
  · rw [List.pairwise_map]
    refine List.Pairwise.imp_of_mem ?_ hc.rows
    intro r s hr hs hne hperm
    apply hne
    have back : ∀ r ∈ t2, (r.map fun v => pix.idxOf v).map (fun i => pix[i]?) = r.map some := by
      intro r hr
      rw [List.map_map]
      apply List.map_congr_left
      intro v hv
      have h1 := List.idxOf_lt_length_iff.2 (hmem r hr v hv)
      simp [List.getElem?_eq_getElem h1]
    have := hperm.map fun i => pix[i]?
    rw [back r hr, back s hs] at this
    exact (List.map_perm_map_iff (Option.some_injective _)).1 this
  · intro r' hr'
    obtain ⟨r, hr, rfl⟩ := List.mem_map.1 hr'
    rw [hrow r hr]
    exact hc.fwd r hr
  · intro r hr
    obtain ⟨r2, hr2, h⟩ := hc.bwd r hr
    exact ⟨_, List.mem_map.2 ⟨r2, hr2, rfl⟩, by rw [hrow r2 hr2]; exact h⟩
  · intro i hi
    have hi' : i < pix.length := hl ▸ hi
    obtain ⟨r, hr, hv⟩ := List.mem_flatten.1 (uniqId_mem.1 (List.getElem_mem hi'))
    refine ⟨_, List.mem_map.2 ⟨r, hr, rfl⟩, List.mem_map.2 ⟨pix[i], hv, ?_⟩⟩
    exact hnd.idxOf_getElem i hi'

/-- Orientation permutes the vertices of each entity. -/
theorem stage4 {key : P → κ} {vol : List P → K} {p : List P} {t : List (List ℕ)} {p3 : List P}
    {t3 : List (List ℕ)} (hc : Clean key p t p3 t3) :
    ∃ t4, t3.mapM (orient vol p3) = .ok t4 ∧ Clean key p t p3 t4 ∧
      List.Forall₂ (fun r r' => r'.Perm r ∧ ∃ vs, Np.take p3 r = .ok vs ∧
        r' = if vol vs < 0 then swap01 r else r) t3 t4 := by
  have ho : ∀ r ∈ t3, ∃ r', orient vol p3 r = .ok r' := by
    intro r hr
    obtain ⟨vs, hvs⟩ := take_ok (a := p3) (hc.inRange r hr)
    exact ⟨_, by simp only [orient, hvs, bind, Except.bind, pure, Except.pure]; rfl⟩
  obtain ⟨t4, h4⟩ := mapM_exists ho
  have hF : List.Forall₂ (fun r r' => r'.Perm r ∧ ∃ vs, Np.take p3 r = .ok vs ∧
        r' = if vol vs < 0 then swap01 r else r) t3 t4 := by
    refine (mapM_forall₂.1 h4).imp ?_
    intro r r' h
    unfold orient at h
    cases hv : Np.take p3 r with
    | error e => rw [hv] at h; cases h
    | ok vs =>
      rw [hv] at h
      simp only [bind, Except.bind, pure, Except.pure, Except.ok.injEq] at h
      refine ⟨?_, vs, rfl, h.symm⟩
      rw [← h]
      split_ifs
      · exact swap01_perm r
      · exact List.Perm.refl r
  refine ⟨t4, h4, ⟨hc.verts, hc.distinct, ?_, ?_, ?_, ?_⟩, hF⟩
  · intro r' hr' i hi
    obtain ⟨r, hr, h, -⟩ := forall₂_right hF r' hr'
    exact hc.inRange r hr i (h.mem_iff.1 hi)
  · have hrows := hc.rows
    clear h4 ho
    induction hF with
    | nil => simp
    | cons h hF ih =>
      rw [List.pairwise_cons] at hrows ⊢
      refine ⟨fun s' hs' hp => ?_, ?_⟩
      · obtain ⟨s, hs, h', -⟩ := forall₂_right hF s' hs'
        exact hrows.1 s hs (h.1.symm.trans (hp.trans h'))
      · have : ∀ (l m : List (List ℕ)), List.Forall₂ (fun r r' : List ℕ => r'.Perm r) l m →
            l.Pairwise (fun r s => ¬ r.Perm s) → m.Pairwise (fun r s => ¬ r.Perm s) := by
          intro l m h
          induction h with
          | nil => simp
          | cons h hF ih =>
            intro hp
            rw [List.pairwise_cons] at hp ⊢
            refine ⟨fun s' hs' hq => ?_, ih hp.2⟩
            obtain ⟨s, hs, h'⟩ := forall₂_right hF s' hs'
            exact hp.1 s hs (h.symm.trans (hq.trans h'))
        exact this _ _ (hF.imp fun _ _ h => h.1) hrows.2
  · intro r' hr'
    obtain ⟨r, hr, h, -⟩ := forall₂_right hF r' hr'
    obtain ⟨r0, hr0, h0⟩ := hc.fwd r hr
    exact ⟨r0, hr0, (h.map _).trans h0⟩
  · intro r0 hr0
    obtain ⟨r, hr, h0⟩ := hc.bwd r0 hr0
    obtain ⟨r', hr', h, -⟩ := forall₂_left hF r hr
    exact ⟨r', hr', (h.map _).trans h0⟩

end SM.FixMesh
