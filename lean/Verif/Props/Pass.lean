import Verif.Props.Forces
import Verif.Props.MeshLoop
import Mathlib.Tactic.NormNum

/-!
# C54 in the meshing loop: what one pass does to the points
-/

namespace SM.MeshLoop

open Np Topology FixMesh Forces

noncomputable section
variable {d : ℕ} {κ ρ : Type} [LinearOrder κ] [LinearOrder ρ]

/-- The points `p` displaced by `dt` times their force, except those with a number in `held`. -/
def displaced (dt : ℝ) (held : List ℕ) (p F : List (Fin d → ℝ)) : List (Fin d → ℝ) :=
  (List.range p.length).map fun i => if i ∈ held then pos p i else pos p i + dt • pos F i

open Classical in
/-- The place of a point after the corrections of one pass: a point outside the domain takes one full Newton step towards its boundary, and then,
for each subdomain in turn, a point outside it by less than two thirds of the minimal size takes one full Newton step towards the boundary of that. -/
def pulled (fd : (Fin d → ℝ) → ℝ) (subs : List ((Fin d → ℝ) → ℝ)) (deps h0 : ℝ) (x : Fin d → ℝ) : Fin d → ℝ :=
  subs.foldl (fun y l => if 0 < l y ∧ l y < 2 / 3 * h0 then Project.newton l deps 1 y else y) (if 0 < fd x then Project.newton fd deps 1 x else x)

theorem projectAll_subs (deps h0 : ℝ) : ∀ (subs : List ((Fin d → ℝ) → ℝ)) (k : ℕ) (p : List (Fin d → ℝ)),
    projectAll deps h0 (k + 1) subs p = p.map (pulled (fun _ => 0) subs deps h0)
  | [], k, p => by
    have : pulled (fun _ : Fin d → ℝ => 0) [] deps h0 = id := by funext x; simp [pulled]
    simp [projectAll, this]
  | l :: ls, k, p => by
    rw [projectAll, projectAll_subs deps h0 ls]
    unfold Project.projectBack
    rw [List.map_map]
    refine List.map_congr_left fun x _ => ?_
    have h23 : h0 / 1.5 = 2 / 3 * h0 := by ring
    simp only [Function.comp_apply, pulled, lt_irrefl, if_false, List.foldl_cons, Project.selected, Nat.add_eq_zero_iff, one_ne_zero, and_false, gt_iff_lt, h23]

theorem projectAll_eq (fd : (Fin d → ℝ) → ℝ) (subs : List ((Fin d → ℝ) → ℝ)) (deps h0 : ℝ) (p : List (Fin d → ℝ)) :
    projectAll deps h0 0 (fd :: subs) p = p.map (pulled fd subs deps h0) := by
  rw [projectAll, projectAll_subs]
  unfold Project.projectBack
  rw [List.map_map]
  refine List.map_congr_left fun x _ => ?_
  simp only [Function.comp_apply, pulled, lt_irrefl, if_false, Project.selected, gt_iff_lt, if_true]

/-- What C54 promises of a pass with pressure factor `m`: the triangles kept are those whose centroid is inside; the forces on them are balanced and
repulsive with the targets scaled by `m`; the new points are the old ones displaced by the forces (but for the vertices nearest to a fixed
point) and then projected back. -/
def Relaxes (E : Env d κ ρ) (m : ℝ) (s s' : State d) : Prop :=
  ∃ t F held,
    (∀ r, r ∈ t ↔ r ∈ (E.dt s.p).2 ∧ ∃ vs, take (E.dt s.p).1 r = .ok vs ∧ E.fd (fun k => (vs.map fun v => v k).sum / ((d : ℝ) + 1)) < -E.geps) ∧
    Balanced E.eps m E.fh (E.dt s.p).1 t F ∧
    E.pfix.mapM (closestNode (E.dt s.p).1) = .ok held ∧
    s'.p = (displaced E.deltaT held (E.dt s.p).1 F).map (pulled E.fd E.subs E.deps E.h0)

theorem advance_eq (dt : ℝ) (held : List ℕ) {p F : List (Fin d → ℝ)} (hl : F.length = p.length) :
    advance dt p (zeroAt held F) = displaced dt held p F := by
  apply List.ext_getElem
  · simp [advance, zeroAt, displaced, hl]
  · intro i h1 h2
    have hi : i < p.length := by simpa [displaced] using h2
    have hF : i < F.length := by omega
    simp only [advance, zeroAt, displaced, List.getElem_zipWith, List.getElem_map, List.getElem_zipIdx, List.getElem_range, Nat.zero_add]
    rw [show pos p i = p[i] by simp [pos, List.getD, hi], show pos F i = F[i] by simp [pos, List.getD, hF]]
    split
    · funext k; simp
    · funext k; simp

theorem pass {E : Env d κ ρ} (hser : E.size = 1) {s s' : State d} (h : step E s = .running s') {m : ℝ} (hm : L0multOf d = m)
    (hb : ∀ t, t.Sublist (E.dt s.p).2 → ∃ F, computeForces E.eps (E.dt s.p).1 t E.fh m = .ok F ∧ Balanced E.eps m E.fh (E.dt s.p).1 t F) :
    Relaxes E m s s' := by
  subst hm
  obtain ⟨-, -, -, p, t, ifix, inv, rx, ht, hmv⟩ := step_running h
  obtain ⟨rfl, hif, hrem⟩ := topology_serial hser ht
  have hsub : t.Sublist (E.dt s.p).2 := by
    unfold Project.removeOutside at hrem
    cases hk : (E.dt s.p).2.mapM (Project.keeps E.fd E.geps (E.dt s.p).1) with
    | error e => simp [hk, bind, Except.bind] at hrem
    | ok ks =>
      simp only [hk, bind, Except.bind, pure, Except.pure, Except.ok.injEq] at hrem
      rw [← hrem]
      have hlen : ((E.dt s.p).2.zip ks).map Prod.fst = (E.dt s.p).2 := by
        have := (mapM_forall₂.1 hk).length_eq
        rw [List.map_fst_zip]; omega
      refine (List.Sublist.map _ List.filter_sublist).trans ?_
      rw [hlen]
  obtain ⟨F, hF, hbal⟩ := hb t hsub
  refine ⟨t, F, ifix, removeOutside_spec hrem, hbal, hif, ?_⟩
  unfold move at hmv
  simp only [hF, bind, Except.bind, pure, Except.pure] at hmv
  rw [← advance_eq _ _ hbal.length, ← projectAll_eq]
  simp only [hser, gt_iff_lt, lt_irrefl, if_false] at hmv
  split at hmv
  · split at hmv
    · simp [throw, throwThe, MonadExceptOf.throw] at hmv
    split at hmv
    · simp only [Except.ok.injEq] at hmv; exact hmv.symm
    · simp [throw, throwThe, MonadExceptOf.throw] at hmv
  · simp only [Except.ok.injEq] at hmv; exact hmv.symm

/-- **C54 (pass of a 2-D run).** The targets are 20 % longer, in the mean square, than the bars. -/
theorem C54_pass2 {E : Env 2 κ ρ} (hser : E.size = 1) (he : 0 < E.eps) {s s' : State 2} (h : step E s = .running s')
    (ht : Simplices 3 (E.dt s.p).2) (hr : InRange (E.dt s.p).1 (E.dt s.p).2) (hfh : ∀ x, 0 < E.fh x) : Relaxes E (6 / 5) s s' :=
  pass hser h (by norm_num [L0multOf]) fun _ hsub =>
    C54_triangles he (by norm_num) (fun r hr' => ht r (hsub.subset hr')) (fun r hr' => hr r (hsub.subset hr')) fun _ _ => hfh _

/-- **C54 (pass of a 3-D run).** The targets are 10 % longer, in the mean cube, than the bars. -/
theorem C54_pass3 {E : Env 3 κ ρ} (hser : E.size = 1) (he : 0 < E.eps) {s s' : State 3} (h : step E s = .running s')
    (ht : Simplices 4 (E.dt s.p).2) (hr : InRange (E.dt s.p).1 (E.dt s.p).2) (hfh : ∀ x, 0 < E.fh x) : Relaxes E (11 / 10) s s' :=
  pass hser h (by norm_num [L0multOf]) fun _ hsub =>
    C54_tetrahedra he (by norm_num) (fun r hr' => ht r (hsub.subset hr')) (fun r hr' => hr r (hsub.subset hr')) fun _ _ => hfh _

/-- Concrete case: a right triangle inside the domain, one fixed point, the movement check passed. -/
example : ∃ (E : Env 2 (List ℝ) (List ℕ)) (s s' : State 2), E.size = 1 ∧ E.rank = 0 ∧ 0 < E.eps ∧ E.pfix = [![0, 0]] ∧ step E s = .running s' ∧
    (E.dt s.p).2 = [[0, 1, 2]] ∧ Simplices 3 (E.dt s.p).2 ∧ InRange (E.dt s.p).1 (E.dt s.p).2 ∧ (∀ x, 0 < E.fh x) := by
  have hs : Simplices 3 [[0, 1, 2]] := by intro r hr; simp at hr; subst hr; simp
  have hi : InRange [![0, 0], ![1, 0], (![0, 1] : Fin 2 → ℝ)] [[0, 1, 2]] := by intro r hr; simp at hr; subst hr; simp
  obtain ⟨F, hF, hb⟩ := C54_triangles (eps := 1) one_pos (m := L0multOf 2) (by norm_num [L0multOf]) (fh := fun _ => 1) hs hi fun _ _ => one_pos
  let G : List (Fin 2 → ℝ) → ℝ := fun F => (F.map fun f => |Real.sqrt (∑ k, f k ^ 2)|).sum
  let T : Tools 2 (List ℝ) (List ℕ) :=
    ⟨fun q => [q 0, q 1], id, fun _ => 0, fun _ => 1, id, 0, fun _ _ b => b, fun p t => .ok (p, t), fun p t => .ok (p, t)⟩
  obtain ⟨i, hc⟩ : ∃ i, closestNode [![0, 0], ![1, 0], (![0, 1] : Fin 2 → ℝ)] ![0, 0] = .ok i := by
    obtain ⟨i, hi, -⟩ := Laplace.closest_ok (n := [![0, 0], ![1, 0], (![0, 1] : Fin 2 → ℝ)].length) (by simp) ![0, 0]
      fun i => [![0, 0], ![1, 0], (![0, 1] : Fin 2 → ℝ)].get i
    exact ⟨i.1, hi⟩
  let E : Env 2 (List ℝ) (List ℕ) := ⟨T, fun p => (p, [[0, 1, 2]]), fun _ _ _ => .error "", fun _ => -1, [], fun _ => 1, 1 + G (zeroAt [i] F), 1,
    1 / 10, 1 / 1000, 1, [![0, 0]], 0, 1, 5, ⟨true, true, true⟩⟩
  let s : State 2 := ⟨0, [![0, 0], ![1, 0], ![0, 1]], 0⟩
  have hrem : Project.removeOutside (fun _ : Fin 2 → ℝ => (-1 : ℝ)) (1 / 10) [![0, 0], ![1, 0], ![0, 1]] [[0, 1, 2]] = .ok [[0, 1, 2]] := by
    have : ((10 : ℝ)⁻¹ < 1) := by norm_num
    simp [Project.removeOutside, Project.keeps, Np.take, item, bind, Except.bind, pure, Except.pure, this, List.mapM_cons]
  have htop : topology E s = .ok ([![0, 0], ![1, 0], ![0, 1]], [[0, 1, 2]], [i], [], 0) := by
    simp only [topology, E, s, List.mapM_cons, List.mapM_nil, hc, bind, Except.bind, pure, Except.pure, gt_iff_lt, lt_irrefl, if_false, hrem]
  have hne : ¬ (zeroAt [i] F).isEmpty = true := by
    have : (zeroAt [i] F).length = 3 := by simp [zeroAt, hb.length]
    intro h
    rw [List.isEmpty_iff] at h
    simp [h] at this
  have hle : ∀ f ∈ zeroAt [i] F, (1 : ℝ) * Real.sqrt (∑ k, f k ^ 2) < 1000 * (1 + G (zeroAt [i] F)) := by
    intro f hf
    have h1 : |Real.sqrt (∑ k, f k ^ 2)| ≤ G (zeroAt [i] F) :=
      List.single_le_sum (by intro x hx; obtain ⟨g, -, rfl⟩ := List.mem_map.1 hx; exact abs_nonneg _) _ (List.mem_map_of_mem hf)
    have h2 := le_abs_self (Real.sqrt (∑ k, f k ^ 2))
    have h3 := abs_nonneg (Real.sqrt (∑ k, f k ^ 2))
    linarith
  obtain ⟨q, hmv⟩ : ∃ q, move E [![0, 0], ![1, 0], ![0, 1]] [[0, 1, 2]] [i] [] 0 = .ok q := by
    unfold move
    simp only [E, hF, bind, Except.bind, pure, Except.pure, hne, if_true, if_neg, gt_iff_lt, lt_irrefl, if_false, if_pos hle, Bool.false_eq_true]
    exact ⟨_, rfl⟩
  refine ⟨E, s, ⟨1, q, 1⟩, rfl, rfl, one_pos, rfl, ?_, rfl, hs, hi, fun _ => one_pos⟩
  simp only [step, htop, hmv]
  rw [if_neg (by norm_num [E, s])]

end

end SM.MeshLoop
