import Verif.Model.Options
import Mathlib.Tactic.Linarith
import Mathlib.Tactic.NormNum

/-!
# C51, C52, C74: option validation, the merged bounding box, the domain that is meshed
-/

namespace SM.Gen

/-! ### Specification -/

/-- Names documented in the doc string of `generate_mesh`. -/
def documentedGen : List String :=
  ["h0", "bbox", "verbose", "max_iter", "seed", "perform_checks", "pfix", "axis", "delta_t", "geps_mult",
   "mesh_improvement", "r0m_is_h0"]

/-- Names documented in the doc string of `sliver_removal`. -/
def documentedSliver : List String :=
  ["h0", "verbose", "max_iter", "perform_checks", "pfix", "axis", "min_dh_angle_bound", "max_dh_angle_bound", "geps_mult"]

/-- Names accepted but not documented. -/
def undocumented : List String := ["points", "domain", "edge_length", "subdomains", "gamma", "preserve"]

/-- A call passes `name = v` (first entry of the keyword dictionary). -/
def Passed (kw : Kwargs) (name : String) (v : Py) : Prop := kw.lookup name = some v

/-- No entry is a Python `int`. -/
def AllFloat (l : List Num) : Prop := ∀ n ∈ l, ∃ x, n = .flt x

/-- The bounding box a value denotes contains no integer. -/
def BoxFloat : Py → Prop
  | .tup l => AllFloat l
  | .lst l => AllFloat l
  | _ => True

/-- What the documentation requires of a call of `generate_mesh` / `sliver_removal`. -/
structure ValidCall {P : Type} (domain : DomainArg P) (edge : SizeArg P) (kw : Kwargs) : Prop where
  names : ∀ k ∈ kw.map Prod.fst, k ∈ documentedGen ++ documentedSliver ++ undocumented
  verbose : ∀ v, Passed kw "verbose" v → ∃ n : Num, v = .num n ∧ (n.val = 0 ∨ 1 ≤ n.val)
  domain_ok : domain ≠ .other
  domain_box : ∀ fd b c, domain = .geometry fd b c → AllFloat b
  kw_box : ∀ fd, domain = .callable fd → ∃ v, Passed kw "bbox" v ∧ BoxFloat v
  edge_ok : edge ≠ .other
  edge_box : ∀ fh b h, edge = .sizeFunction fh b h → AllFloat b ∧ 0 ≤ h
  scalar : ∀ h, edge = .scalar h → 0 ≤ h
  h0 : ∀ fh, edge = .callable fh → ∃ n : Num, Passed kw "h0" (.num n) ∧ 0 ≤ n.val

/-! ### Auxiliary facts -/

theorem known_iff (k : String) : k ∈ knownNames ↔ k ∈ documentedGen ++ documentedSliver ++ undocumented := by
  simp only [knownNames, documentedGen, documentedSliver, undocumented, List.cons_append, List.nil_append,
    List.mem_cons, List.not_mem_nil, or_false]
  tauto

theorem parseKwargs_ok (kw : Kwargs) : parseKwargs kw = .ok () ↔ ∀ k ∈ kw.map Prod.fst, k ∈ knownNames := by
  induction kw with
  | nil => simp [parseKwargs]
  | cons x kw ih =>
    obtain ⟨k, v⟩ := x
    by_cases h : k ∈ knownNames <;> simp [parseKwargs, h, ih]

theorem parseKwargs_error (kw : Kwargs) (h : ∃ k ∈ kw.map Prod.fst, k ∉ knownNames) :
    parseKwargs kw = .error "ValueError: option not recognized" := by
  induction kw with
  | nil => simp at h
  | cons x kw ih =>
    obtain ⟨k, v⟩ := x
    by_cases hk : k ∈ knownNames
    · simp only [List.map_cons, List.mem_cons, exists_eq_or_imp, hk, not_true_eq_false, false_or] at h
      simp only [parseKwargs, hk, if_true, ih h]
    · simp [parseKwargs, hk]

theorem checkFloats_ok (l : List Num) : checkFloats l = .ok () ↔ AllFloat l := by
  induction l with
  | nil => simp [checkFloats, AllFloat]
  | cons x l ih => cases x <;> simp_all [checkFloats, AllFloat]

theorem checkBbox_ok {b : Py} (h : checkBbox b = .ok ()) : BoxFloat b := by
  cases b <;> simp_all [checkBbox, BoxFloat, checkFloats_ok]

theorem getOpt_passed {kw : Kwargs} {k : String} {v : Py} (h : Passed kw k v) : getOpt defaults kw k = .ok v := by
  simp [getOpt, Passed] at *; simp [h]

theorem getOpt_nodefault {kw : Kwargs} {k : String} {v : Py} (hd : defaults.lookup k = none)
    (h : getOpt defaults kw k = .ok v) : Passed kw k v := by
  unfold getOpt at h
  split at h
  · rename_i w hw; cases h; exact hw
  · rw [hd] at h; simp at h

theorem selectVerbosity_ok {v : ℝ} {t : Bool × Bool} (h : selectVerbosity v = .ok t) : v = 0 ∨ 1 ≤ v := by
  unfold selectVerbosity at h
  split at h
  · left; assumption
  split at h
  · right; linarith
  split at h
  · right; linarith
  · simp at h

theorem asNum_ok {v : Py} {x : ℝ} (h : asNum v = .ok x) : ∃ n : Num, v = .num n ∧ n.val = x := by
  cases v <;> simp [asNum] at h
  exact ⟨_, rfl, h⟩

theorem unpackDomain_ok {P : Type} {d : DomainArg P} {kw : Kwargs} {r : (P → ℝ) × Py × Option (List P)}
    (h : unpackDomain d kw = .ok r) :
    d ≠ .other ∧ BoxFloat r.2.1 ∧
    ((∃ fd b c, d = .geometry fd b c ∧ r = (fd, .tup b, c)) ∨
     (∃ fd v, d = .callable fd ∧ Passed kw "bbox" v ∧ r = (fd, v, none))) := by
  cases d with
  | geometry fd b c =>
    simp only [unpackDomain, bind, Except.bind, pure, Except.pure] at h
    split at h
    · simp at h
    rename_i hc
    cases h
    exact ⟨by simp, checkBbox_ok hc, Or.inl ⟨_, _, _, rfl, rfl⟩⟩
  | callable fd =>
    simp only [unpackDomain, bind, Except.bind, pure, Except.pure] at h
    cases hg : getOpt defaults kw "bbox" with
    | error e => simp [hg] at h
    | ok v =>
      simp only [hg] at h
      split at h
      · simp at h
      rename_i hc
      cases h
      exact ⟨by simp, checkBbox_ok hc, Or.inr ⟨_, _, rfl, getOpt_nodefault (by decide) hg, rfl⟩⟩
  | other => simp [unpackDomain, bind, Except.bind, throw, throwThe, MonadExceptOf.throw] at h

theorem unpackSizing_ok {P : Type} {e : SizeArg P} {s : Sizing P} (h : unpackSizing e = .ok s) :
    (∃ fh b h0, e = .sizeFunction fh b h0 ∧ AllFloat b ∧ s = ⟨fh, .tup b, some h0, true⟩) ∨
    (∃ fh, e = .callable fh ∧ s = ⟨fh, .none, none, false⟩) ∨
    (∃ h0, e = .scalar h0 ∧ s = ⟨fun _ => h0, .none, some h0, true⟩) := by
  cases e with
  | sizeFunction fh b h0 =>
    simp only [unpackSizing, bind, Except.bind, pure, Except.pure] at h
    split at h
    · simp at h
    rename_i hc
    cases h
    exact Or.inl ⟨_, _, _, rfl, checkBbox_ok hc, rfl⟩
  | callable fh =>
    simp [unpackSizing, bind, Except.bind, pure, Except.pure, checkBbox] at h
    exact Or.inr (Or.inl ⟨_, rfl, h.symm⟩)
  | scalar h0 =>
    simp [unpackSizing, bind, Except.bind, pure, Except.pure, checkBbox] at h
    exact Or.inr (Or.inr ⟨_, rfl, h.symm⟩)
  | other => simp [unpackSizing, bind, Except.bind, throw, throwThe, MonadExceptOf.throw] at h

/-- The steps of a successful `genSetup`. -/
theorem genSetup_ok {P : Type} {boxEval : List ℝ → P → ℝ} {domain : DomainArg P} {edge : SizeArg P} {kw : Kwargs}
    {s : Setup P} (h : genSetup boxEval domain edge kw = .ok s) :
    parseKwargs kw = .ok () ∧
    (∃ v n t, getOpt defaults kw "verbose" = .ok v ∧ asNum v = .ok n ∧ selectVerbosity n = .ok t) ∧
    ∃ r z, unpackDomain domain kw = .ok r ∧ unpackSizing edge = .ok z ∧ mergeBbox r.2.1 z.bbox = .ok s.bbox ∧
      s.fh = z.fh ∧
      (Rebuild r.2.1 z.bbox → s.fd = boxEval s.bbox) ∧ (¬ Rebuild r.2.1 z.bbox → s.fd = r.1) ∧
      s.bbox.length % 2 = 0 ∧ 0 ≤ s.h0 ∧
      (∀ h0, z.hmin = some h0 → s.h0 = h0) ∧
      (z.hmin = none → ∃ v, getOpt defaults kw "h0" = .ok v ∧ asNum v = .ok s.h0) := by
  unfold genSetup at h
  simp only [bind, Except.bind, pure, Except.pure, throw, throwThe, MonadExceptOf.throw] at h
  split at h
  · simp at h
  rename_i hp
  split at h
  · simp at h
  rename_i v hv
  split at h
  · simp at h
  rename_i n hn
  split at h
  · simp at h
  rename_i t ht
  split at h
  · simp at h
  rename_i r hr
  obtain ⟨fd, b0, cs⟩ := r
  simp only at h
  split at h
  · simp at h
  rename_i z hz
  split at h
  · simp at h
  rename_i bb hbb
  refine ⟨hp, ⟨v, n, t, hv, hn, ht⟩, (fd, b0, cs), z, hr, hz, ?_⟩
  split at h
  · simp at h
  rename_i fd' hfd
  split at h
  · simp at h
  rename_i hodd
  split at h
  · simp at h
  rename_i h0 hh0
  split at h
  · simp at h
  rename_i hneg
  cases h
  refine ⟨hbb, rfl, ?_, ?_, by simp only; omega, by simpa using hneg, ?_, ?_⟩
  · intro hR
    rw [if_pos hR] at hfd
    split at hfd
    · simpa using hfd.symm
    · simp at hfd
  · intro hR
    rw [if_neg hR] at hfd
    simpa using hfd.symm
  · intro h1 hz1
    rw [hz1] at hh0
    simpa using hh0.symm
  · intro hz1
    rw [hz1] at hh0
    simp only at hh0
    split at hh0
    · simp at hh0
    rename_i w hw
    exact ⟨w, hw, hh0⟩

/-! ### C51 -/

section c51
variable {P : Type} (boxEval : List ℝ → P → ℝ) (domain : DomainArg P) (edge : SizeArg P)

/-- An option name that is not one of the accepted ones raises `ValueError`, whatever else is passed. -/
theorem C51_unknown_name (kw : Kwargs) (k : String) (v : Py) (hk : (k, v) ∈ kw)
    (hun : k ∉ documentedGen ++ documentedSliver ++ undocumented) :
    genSetup boxEval domain edge kw = .error "ValueError: option not recognized" ∧
    ∀ d, sliverSetup boxEval d domain edge kw = .error "ValueError: option not recognized" := by
  have h := parseKwargs_error kw ⟨k, List.mem_map.2 ⟨_, hk, rfl⟩, fun h => hun ((known_iff k).1 h)⟩
  exact ⟨by simp [genSetup, h, bind, Except.bind], fun d => by simp [sliverSetup, h, bind, Except.bind]⟩

/-- All documented names (and the undocumented ones) are recognised. -/
theorem C51_names_accepted (kw : Kwargs)
    (h : ∀ k ∈ kw.map Prod.fst, k ∈ documentedGen ++ documentedSliver ++ undocumented) :
    parseKwargs kw = .ok () :=
  (parseKwargs_ok kw).2 fun k hk => (known_iff k).2 (h k hk)

variable {boxEval domain edge}

/-- `generate_mesh` gets past its argument handling only for a valid call; `h0` is then non-negative. -/
theorem C51_generate_mesh {kw : Kwargs} {s : Setup P} (h : genSetup boxEval domain edge kw = .ok s) :
    ValidCall domain edge kw ∧ 0 ≤ s.h0 := by
  obtain ⟨hp, ⟨v, n, t, hv, hn, ht⟩, r, z, hr, hz, -, -, -, -, -, hpos, hsome, hnone⟩ := genSetup_ok h
  obtain ⟨hd, hb, hr'⟩ := unpackDomain_ok hr
  refine ⟨⟨fun k hk => (known_iff k).1 ((parseKwargs_ok kw).1 hp k hk), ?_, hd, ?_, ?_, ?_, ?_, ?_, ?_⟩, hpos⟩
  · intro w hw
    rw [getOpt_passed hw] at hv
    cases hv
    obtain ⟨m, rfl, hm⟩ := asNum_ok hn
    exact ⟨m, rfl, by rw [hm]; exact selectVerbosity_ok ht⟩
  · rintro fd b c rfl
    rcases hr' with ⟨_, _, _, he, rfl⟩ | ⟨_, _, he, -, rfl⟩
    · cases he; exact hb
    · cases he
  · rintro fd rfl
    rcases hr' with ⟨_, _, _, he, rfl⟩ | ⟨_, w, he, hw, rfl⟩
    · cases he
    · exact ⟨w, hw, hb⟩
  · rintro rfl
    rcases unpackSizing_ok hz with ⟨_, _, _, he, _⟩ | ⟨_, he, _⟩ | ⟨_, he, _⟩ <;> cases he
  · rintro fh b h0 rfl
    rcases unpackSizing_ok hz with ⟨_, _, _, he, hf, rfl⟩ | ⟨_, he, _⟩ | ⟨_, he, _⟩ <;> cases he
    exact ⟨hf, by rw [← hsome _ rfl]; exact hpos⟩
  · rintro h0 rfl
    rcases unpackSizing_ok hz with ⟨_, _, _, he, _⟩ | ⟨_, he, _⟩ | ⟨_, he, rfl⟩ <;> cases he
    rw [← hsome _ rfl]; exact hpos
  · rintro fh rfl
    rcases unpackSizing_ok hz with ⟨_, _, _, he, _⟩ | ⟨_, he, rfl⟩ | ⟨_, he, _⟩ <;> cases he
    obtain ⟨w, hw, hw'⟩ := hnone rfl
    obtain ⟨m, rfl, hm⟩ := asNum_ok hw'
    exact ⟨m, getOpt_nodefault (by decide) hw, by rw [hm]; exact hpos⟩

/-- The same for `sliver_removal`, which also refuses two-dimensional points and a negative `max_iter`. -/
theorem C51_sliver_removal {kw : Kwargs} {d : ℕ} {s : Setup P} {m : ℝ}
    (h : sliverSetup boxEval d domain edge kw = .ok (s, m)) :
    ValidCall domain edge kw ∧ 0 ≤ s.h0 ∧ d ≠ 2 ∧ 0 ≤ m ∧
      (∀ v, Passed kw "max_iter" v → ∃ n : Num, v = .num n ∧ n.val = m) := by
  unfold sliverSetup at h
  simp only [bind, Except.bind, pure, Except.pure, throw, throwThe, MonadExceptOf.throw] at h
  split at h
  · simp at h
  rename_i hp
  split at h
  · simp at h
  rename_i v hv
  split at h
  · simp at h
  rename_i n hn
  split at h
  · simp at h
  rename_i t ht
  split at h
  · simp at h
  rename_i hdim
  split at h
  · simp at h
  rename_i r hr
  obtain ⟨fd, b0, cs⟩ := r
  simp only at h
  split at h
  · simp at h
  rename_i z hz
  split at h
  · simp at h
  rename_i bb hbb
  split at h
  · simp at h
  rename_i h0 hh0
  split at h
  · simp at h
  rename_i hneg
  split at h
  · simp at h
  rename_i m' hm'
  simp only [Except.ok.injEq, Prod.mk.injEq] at h
  obtain ⟨rfl, rfl⟩ := h
  obtain ⟨hd, hb, hr'⟩ := unpackDomain_ok hr
  have hpos : 0 ≤ h0 := by simpa using hneg
  have hmax : 0 ≤ m' ∧ ∀ v, Passed kw "max_iter" v → ∃ n : Num, v = .num n ∧ n.val = m' := by
    unfold maxIterOf at hm'
    simp only [bind, Except.bind, pure, Except.pure, throw, throwThe, MonadExceptOf.throw] at hm'
    split at hm'
    · simp at hm'
    rename_i w hw
    split at hm'
    · simp at hm'
    rename_i x hx
    split at hm'
    · simp at hm'
    rename_i hx0
    cases hm'
    refine ⟨by simpa using hx0, fun u hu => ?_⟩
    rw [getOpt_passed hu] at hw
    cases hw
    exact asNum_ok hx
  refine ⟨⟨fun k hk => (known_iff k).1 ((parseKwargs_ok kw).1 hp k hk), ?_, hd, ?_, ?_, ?_, ?_, ?_, ?_⟩, hpos, hdim, hmax⟩
  · intro w hw
    rw [getOpt_passed hw] at hv
    cases hv
    obtain ⟨m, rfl, hm⟩ := asNum_ok hn
    exact ⟨m, rfl, by rw [hm]; exact selectVerbosity_ok ht⟩
  · rintro fd' b c rfl
    rcases hr' with ⟨_, _, _, he, hre⟩ | ⟨_, _, he, -, hre⟩
    · cases he; cases hre; exact hb
    · cases he
  · rintro fd' rfl
    rcases hr' with ⟨_, _, _, he, hre⟩ | ⟨_, w, he, hw, hre⟩
    · cases he
    · cases hre; exact ⟨_, hw, hb⟩
  · rintro rfl
    rcases unpackSizing_ok hz with ⟨_, _, _, he, _⟩ | ⟨_, he, _⟩ | ⟨_, he, _⟩ <;> cases he
  · rintro fh b h1 rfl
    rcases unpackSizing_ok hz with ⟨_, _, _, he, hf, rfl⟩ | ⟨_, he, _⟩ | ⟨_, he, _⟩ <;> cases he
    simp at hh0
    exact ⟨hf, by rw [hh0]; exact hpos⟩
  · rintro h1 rfl
    rcases unpackSizing_ok hz with ⟨_, _, _, he, _⟩ | ⟨_, he, _⟩ | ⟨_, he, rfl⟩ <;> cases he
    simp at hh0
    rw [hh0]; exact hpos
  · rintro fh rfl
    rcases unpackSizing_ok hz with ⟨_, _, _, he, _⟩ | ⟨_, he, rfl⟩ | ⟨_, he, _⟩ <;> cases he
    simp only at hh0
    split at hh0
    · simp at hh0
    rename_i w hw
    obtain ⟨m, rfl, hm⟩ := asNum_ok hh0
    exact ⟨m, getOpt_nodefault (by decide) hw, by rw [hm]; exact hpos⟩

/-- `generate_mesh`'s check of `max_iter`: an accepted value is a non-negative number. (Zero is accepted although
the message says "must be > 0"; see C53.) -/
theorem C51_max_iter {kw : Kwargs} {m : ℝ} :
    maxIterOf kw = .ok m ↔
      0 ≤ m ∧ ((∃ n : Num, Passed kw "max_iter" (.num n) ∧ n.val = m) ∨ (kw.lookup "max_iter" = none ∧ m = 50)) := by
  have hd : defaults.lookup "max_iter" = some (.num (.int 50)) := by
    rw [defaults, List.lookup_cons, show ("max_iter" == "verbose") = false by decide]; simp
  cases hk : kw.lookup "max_iter" with
  | none =>
    simp only [maxIterOf, getOpt, hk, hd, bind, Except.bind, asNum, Num.val, pure, Except.pure, Passed]
    rw [if_neg (by norm_num)]
    simp only [Except.ok.injEq, reduceCtorEq, false_and, exists_false, true_and, false_or]
    constructor
    · rintro rfl; norm_num
    · rintro ⟨-, rfl⟩; norm_num
  | some v =>
    simp only [maxIterOf, getOpt, hk, bind, Except.bind, Passed, pure, Except.pure, reduceCtorEq, false_and,
      or_false, Option.some.injEq]
    cases v with
    | num n =>
      simp only [asNum]
      by_cases hn : n.val < 0
      · simp only [hn, if_true, throw, throwThe, MonadExceptOf.throw, reduceCtorEq, Py.num.injEq, exists_eq_left', false_iff]
        rintro ⟨h1, rfl⟩
        linarith
      · simp only [hn, if_false, Except.ok.injEq, Py.num.injEq, exists_eq_left']
        exact ⟨fun h => ⟨by rw [← h]; linarith, h⟩, fun h => h.2⟩
    | _ => simp [asNum]

/-- The converse: a valid call with a geometry object of dimension 2 or 3 and a scalar edge length, or with
two callables, passes the argument handling. -/
theorem C51_valid_accepted {kw : Kwargs} (hv : ValidCall domain edge kw) :
    (∀ fd b c h, domain = .geometry fd b c → edge = .scalar h → b.length = 4 ∨ b.length = 6 →
      ∃ s, genSetup boxEval domain edge kw = .ok s) ∧
    (∀ fd fh b, domain = .callable fd → edge = .callable fh → Passed kw "bbox" (.tup b) →
      b.length = 4 ∨ b.length = 6 → ∃ s, genSetup boxEval domain edge kw = .ok s) := by
  have hp : parseKwargs kw = .ok () := C51_names_accepted kw hv.names
  have hverb : ∃ v n t, getOpt defaults kw "verbose" = .ok v ∧ asNum v = .ok n ∧ selectVerbosity n = .ok t := by
    have key : ∀ x : ℝ, (x = 0 ∨ 1 ≤ x) → ∃ t, selectVerbosity x = .ok t := by
      intro x hx
      unfold selectVerbosity
      by_cases h0 : x = 0
      · exact ⟨_, if_pos h0⟩
      by_cases h1 : x = 1
      · exact ⟨_, by rw [if_neg h0, if_pos h1]⟩
      have : x > 1 := by
        rcases hx with h | h
        · exact absurd h h0
        · exact lt_of_le_of_ne h (Ne.symm h1)
      exact ⟨_, by rw [if_neg h0, if_neg h1, if_pos this]⟩
    cases hk : kw.lookup "verbose" with
    | some v =>
      obtain ⟨n, rfl, hn⟩ := hv.verbose v hk
      obtain ⟨t, ht⟩ := key _ hn
      exact ⟨_, _, t, getOpt_passed hk, rfl, ht⟩
    | none =>
      obtain ⟨t, ht⟩ := key (Num.int 1).val (Or.inr (by simp [Num.val]))
      exact ⟨.num (.int 1), _, t, by simp [getOpt, hk, defaults], rfl, ht⟩
  obtain ⟨v, n, t, h1, h2, h3⟩ := hverb
  constructor
  · rintro fd b c h rfl rfl hlen
    have hb : checkFloats b = .ok () := (checkFloats_ok b).2 (hv.domain_box _ _ _ rfl)
    have hh : ¬ h < 0 := not_lt.2 (hv.scalar _ rfl)
    have hodd : ¬ (b.length % 2 = 1) := by rcases hlen with h | h <;> omega
    refine ⟨⟨fd, fun _ => h, b.map Num.val, h, c, true, t⟩, ?_⟩
    simp [genSetup, hp, h1, h2, h3, unpackDomain, unpackSizing, hb, checkBbox, mergeBbox, Rebuild, hodd, hh, bind,
      Except.bind, pure, Except.pure]
  · rintro fd fh b rfl rfl hpb hlen
    obtain ⟨w, hw, hbf⟩ := hv.kw_box _ rfl
    obtain ⟨m, hm, hm0⟩ := hv.h0 _ rfl
    obtain rfl : w = .tup b := by
      unfold Passed at hpb hw; rw [hpb] at hw; cases hw; rfl
    have hb : checkFloats b = .ok () := (checkFloats_ok b).2 hbf
    have hh : ¬ m.val < 0 := not_lt.2 hm0
    have hodd : ¬ (b.length % 2 = 1) := by rcases hlen with h | h <;> omega
    refine ⟨⟨fd, fh, b.map Num.val, m.val, none, false, t⟩, ?_⟩
    simp [genSetup, hp, h1, h2, h3, unpackDomain, unpackSizing, hb, checkBbox, mergeBbox, Rebuild, hodd, hh, bind,
      Except.bind, pure, Except.pure, getOpt_passed hpb, getOpt_passed hm, show asNum (.num m) = .ok m.val from rfl]

end c51

/-! ### C52 -/

/-- The box `(lo0, hi0, lo1, hi1, ...)` as a set of points. -/
def boxSet (d : ℕ) (b : List ℝ) : Set (Fin d → ℝ) :=
  {x | ∀ i : Fin d, b.getD (2 * i) 0 ≤ x i ∧ x i ≤ b.getD (2 * i + 1) 0}

theorem minmaxFrom_length (i : ℕ) (l m : List ℝ) : (minmaxFrom i l m).length = min l.length m.length := by
  induction l generalizing i m with
  | nil => simp [minmaxFrom]
  | cons a l ih =>
    cases m with
    | nil => simp [minmaxFrom]
    | cons b m => simp [minmaxFrom, ih]

theorem minmaxFrom_get (i j : ℕ) (l m : List ℝ) (hl : j < l.length) (hm : j < m.length) :
    (minmaxFrom i l m).getD j 0 =
      if (i + j) % 2 = 1 then max (l.getD j 0) (m.getD j 0) else min (l.getD j 0) (m.getD j 0) := by
  induction l generalizing i j m with
  | nil => simp at hl
  | cons a l ih =>
    cases m with
    | nil => simp at hm
    | cons b m =>
      cases j with
      | zero => simp [minmaxFrom]
      | succ j =>
        simp only [minmaxFrom, List.getD_cons_succ]
        rw [ih (i + 1) j m (by simpa using hl) (by simpa using hm)]
        rw [show i + 1 + j = i + (j + 1) by ring]

theorem minmax_lo {d : ℕ} {b0 b1 : List ℝ} (h0 : b0.length = 2 * d) (h1 : b1.length = 2 * d) (i : Fin d) :
    (minmax b0 b1).getD (2 * i) 0 = min (b0.getD (2 * i) 0) (b1.getD (2 * i) 0) := by
  have := i.2
  rw [minmax, minmaxFrom_get 0 (2 * i) b0 b1 (by omega) (by omega), if_neg (by omega)]

theorem minmax_hi {d : ℕ} {b0 b1 : List ℝ} (h0 : b0.length = 2 * d) (h1 : b1.length = 2 * d) (i : Fin d) :
    (minmax b0 b1).getD (2 * i + 1) 0 = max (b0.getD (2 * i + 1) 0) (b1.getD (2 * i + 1) 0) := by
  have := i.2
  rw [minmax, minmaxFrom_get 0 (2 * i + 1) b0 b1 (by omega) (by omega), if_pos (by omega)]

theorem boxSet_subset {d : ℕ} {b c : List ℝ} (hne : (boxSet d b).Nonempty) (h : boxSet d b ⊆ boxSet d c) (i : Fin d) :
    c.getD (2 * i) 0 ≤ b.getD (2 * i) 0 ∧ b.getD (2 * i + 1) 0 ≤ c.getD (2 * i + 1) 0 := by
  obtain ⟨x, hx⟩ := hne
  have hle : ∀ j : Fin d, b.getD (2 * j) 0 ≤ b.getD (2 * j + 1) 0 := fun j => (hx j).1.trans (hx j).2
  exact ⟨(h (show (fun j : Fin d => b.getD (2 * (j : ℕ)) 0) ∈ boxSet d b from fun j => ⟨le_rfl, hle j⟩) i).1,
    (h (show (fun j : Fin d => b.getD (2 * (j : ℕ) + 1) 0) ∈ boxSet d b from fun j => ⟨hle j, le_rfl⟩) i).2⟩

/-- The box used by `generate_mesh` contains the box of the domain and that of the sizing function, and
is contained in every box that does. -/
theorem C52_hull {P : Type} {boxEval : List ℝ → P → ℝ} {fd fh : P → ℝ} {b0 b1 : List Num}
    {c : Option (List P)} {h : ℝ} {kw : Kwargs} {s : Setup P} {d : ℕ}
    (hs : genSetup boxEval (.geometry fd b0 c) (.sizeFunction fh b1 h) kw = .ok s)
    (hl0 : b0.length = 2 * d) (hl1 : b1.length = 2 * d) :
    s.bbox.length = 2 * d ∧
    boxSet d (b0.map Num.val) ⊆ boxSet d s.bbox ∧ boxSet d (b1.map Num.val) ⊆ boxSet d s.bbox ∧
    ∀ b : List ℝ, (boxSet d (b0.map Num.val)).Nonempty → (boxSet d (b1.map Num.val)).Nonempty →
      boxSet d (b0.map Num.val) ⊆ boxSet d b → boxSet d (b1.map Num.val) ⊆ boxSet d b → boxSet d s.bbox ⊆ boxSet d b := by
  obtain ⟨-, -, r, z, hr, hz, hm, -⟩ := genSetup_ok hs
  obtain ⟨-, -, hr'⟩ := unpackDomain_ok hr
  rcases hr' with ⟨_, _, _, he, rfl⟩ | ⟨_, _, he, -⟩ <;> cases he
  rcases unpackSizing_ok hz with ⟨_, _, _, he, -, rfl⟩ | ⟨_, he, _⟩ | ⟨_, he, _⟩ <;> cases he
  simp [mergeBbox, seqOf, bind, Except.bind, pure, Except.pure] at hm
  have hl0' : (b0.map Num.val).length = 2 * d := by simpa using hl0
  have hl1' : (b1.map Num.val).length = 2 * d := by simpa using hl1
  rw [← hm]
  refine ⟨by rw [minmax, minmaxFrom_length]; simp [hl0, hl1], ?_, ?_, ?_⟩
  · intro x hx i
    rw [minmax_lo hl0' hl1', minmax_hi hl0' hl1']
    exact ⟨(min_le_left _ _).trans (hx i).1, (hx i).2.trans (le_max_left _ _)⟩
  · intro x hx i
    rw [minmax_lo hl0' hl1', minmax_hi hl0' hl1']
    exact ⟨(min_le_right _ _).trans (hx i).1, (hx i).2.trans (le_max_right _ _)⟩
  · intro b n0 n1 h0 h1 x hx i
    have hx' := hx i
    rw [minmax_lo hl0' hl1', minmax_hi hl0' hl1'] at hx'
    have a0 := boxSet_subset n0 h0 i
    have a1 := boxSet_subset n1 h1 i
    exact ⟨(le_min a0.1 a1.1).trans hx'.1, hx'.2.trans (max_le a0.2 a1.2)⟩

/-- Without a `SizeFunction` the box is the domain's. -/
theorem C52_domain_box {P : Type} {boxEval : List ℝ → P → ℝ} {fd : P → ℝ} {b0 : List Num} {edge : SizeArg P}
    {c : Option (List P)} {kw : Kwargs} {s : Setup P}
    (hs : genSetup boxEval (.geometry fd b0 c) edge kw = .ok s) (he : ∀ fh b h, edge ≠ .sizeFunction fh b h) :
    s.bbox = b0.map Num.val := by
  obtain ⟨-, -, r, z, hr, hz, hm, -⟩ := genSetup_ok hs
  obtain ⟨-, -, hr'⟩ := unpackDomain_ok hr
  rcases hr' with ⟨_, _, _, he', rfl⟩ | ⟨_, _, he', -⟩ <;> cases he'
  rcases unpackSizing_ok hz with ⟨_, _, _, he', -⟩ | ⟨_, he', rfl⟩ | ⟨_, he', rfl⟩
  · exact absurd he' (he _ _ _)
  · simpa [mergeBbox] using hm.symm
  · simpa [mergeBbox] using hm.symm

/-! ### C74 -/

/-- Partial: the domain that is meshed is the one passed, if the sizing is a function or a scalar, or a
`SizeFunction` with exactly the box of the domain. -/
theorem C74_same_box_partial {P : Type} {boxEval : List ℝ → P → ℝ} {domain : DomainArg P} {edge : SizeArg P}
    {kw : Kwargs} {s : Setup P} (hs : genSetup boxEval domain edge kw = .ok s) :
    (∀ fd b c, domain = .geometry fd b c →
      (∀ fh b1 h, edge = .sizeFunction fh b1 h → b1.map Num.val = b.map Num.val) → s.fd = fd) ∧
    (∀ fd, domain = .callable fd →
      (∀ fh b1 h, edge = .sizeFunction fh b1 h → ∃ b, Passed kw "bbox" (.tup b) ∧ b1.map Num.val = b.map Num.val) →
      s.fd = fd) := by
  obtain ⟨-, -, r, z, hr, hz, -, -, -, hno, -⟩ := genSetup_ok hs
  obtain ⟨-, -, hr'⟩ := unpackDomain_ok hr
  constructor
  · rintro fd b c rfl hbox
    rcases hr' with ⟨_, _, _, he', rfl⟩ | ⟨_, _, he', -⟩ <;> cases he'
    apply hno
    rcases unpackSizing_ok hz with ⟨_, _, _, rfl, -, rfl⟩ | ⟨_, rfl, rfl⟩ | ⟨_, rfl, rfl⟩
    · simpa [Rebuild] using (hbox _ _ _ rfl).symm
    · simp [Rebuild]
    · simp [Rebuild]
  · rintro fd rfl hbox
    rcases hr' with ⟨_, _, _, he', rfl⟩ | ⟨_, v, he', hv, rfl⟩ <;> cases he'
    apply hno
    rcases unpackSizing_ok hz with ⟨_, _, _, rfl, -, rfl⟩ | ⟨_, rfl, rfl⟩ | ⟨_, rfl, rfl⟩
    · obtain ⟨b, hb, hb'⟩ := hbox _ _ _ rfl
      unfold Passed at hb hv
      rw [hb] at hv
      cases hv
      simpa [Rebuild] using hb'.symm
    · simp [Rebuild]
    · simp [Rebuild]

/-- With any other `SizeFunction` box the domain is replaced by the hull box, whatever the domain was. -/
theorem C74_replaced {P : Type} {boxEval : List ℝ → P → ℝ} {fd fh : P → ℝ} {b0 b1 : List Num} {c : Option (List P)}
    {h : ℝ} {kw : Kwargs} {s : Setup P}
    (hs : genSetup boxEval (.geometry fd b0 c) (.sizeFunction fh b1 h) kw = .ok s)
    (hne : b0.map Num.val ≠ b1.map Num.val) : s.fd = boxEval s.bbox := by
  obtain ⟨-, -, r, z, hr, hz, -, -, hyes, -⟩ := genSetup_ok hs
  obtain ⟨-, -, hr'⟩ := unpackDomain_ok hr
  rcases hr' with ⟨_, _, _, he', rfl⟩ | ⟨_, _, he', -⟩ <;> cases he'
  rcases unpackSizing_ok hz with ⟨_, _, _, he, -, rfl⟩ | ⟨_, he, _⟩ | ⟨_, he, _⟩ <;> cases he
  exact hyes (by simpa [Rebuild] using hne)

/-- The unit disk with a sizing function whose box reaches to `x = 2`. -/
noncomputable def diskArg : DomainArg (Sdf.Pt 2) :=
  .geometry (Sdf.ddisk 0 0 1) [.flt (-1), .flt 1, .flt (-1), .flt 1] none
noncomputable def diskSizing : SizeArg (Sdf.Pt 2) :=
  .sizeFunction (fun _ => 1) [.flt (-1), .flt 2, .flt (-1), .flt 1] 1

theorem disk_setup : genSetup box2 diskArg diskSizing [] = .ok
    ⟨box2 [-1, 2, -1, 1], fun _ => 1, [-1, 2, -1, 1], 1, none, true, (true, false)⟩ := by
  have hR : Rebuild (.tup [.flt (-1), .flt 1, .flt (-1), .flt 1]) (.tup [.flt (-1), .flt 2, .flt (-1), .flt 1]) := by
    simp [Rebuild, Num.val]
  have hm : minmax [-1, 1, -1, 1] [-1, 2, -1, 1] = [-1, 2, -1, 1] := by
    simp [minmax, minmaxFrom]
  simp [genSetup, parseKwargs, getOpt, defaults, asNum, Num.val, selectVerbosity, diskArg, diskSizing, unpackDomain,
    unpackSizing, checkBbox, checkFloats, mergeBbox, seqOf, hR, hm, bind, Except.bind, pure, Except.pure]

/-- The property as stated is false: a disk is silently replaced by a rectangle, so that a point outside the disk
is inside the region meshed. -/
theorem C74_false : ∃ s : Setup (Sdf.Pt 2), genSetup box2 diskArg diskSizing [] = .ok s ∧
    ∃ x : Sdf.Pt 2, 0 < Sdf.ddisk 0 0 1 x ∧ s.fd x < 0 := by
  refine ⟨_, disk_setup, ![3 / 2, 0], ?_, ?_⟩
  · simp only [Sdf.ddisk, Matrix.cons_val_zero, Matrix.cons_val_one]
    rw [show ((3 / 2 : ℝ) - 0) ^ 2 + (0 - 0) ^ 2 = (3 / 2) ^ 2 by norm_num, Real.sqrt_sq (by norm_num)]
    norm_num
  · simp only [box2, Sdf.drectangle, Matrix.cons_val_zero, Matrix.cons_val_one]
    norm_num

/-- A concrete valid call: the unit disk with a scalar edge length (hypotheses of C51, C52, C74). -/
example : ∃ s : Setup (Sdf.Pt 2), genSetup box2 diskArg (.scalar (1 / 10)) [("verbose", .num (.int 0)), ("h0", .obj)] = .ok s ∧
    s.h0 = 1 / 10 ∧ s.fd = Sdf.ddisk 0 0 1 := by
  refine ⟨⟨Sdf.ddisk 0 0 1, fun _ => 1 / 10, [-1, 1, -1, 1], 1 / 10, none, true, (false, false)⟩, ?_, rfl, rfl⟩
  simp [genSetup, parseKwargs, knownNames, getOpt, asNum, Num.val, selectVerbosity, diskArg, unpackDomain,
    unpackSizing, checkBbox, checkFloats, mergeBbox, Rebuild, bind, Except.bind, pure, Except.pure]

/-- `sliver_removal` also passes on a concrete call. -/
example : ∃ s : Setup (Sdf.Pt 3) × ℝ, sliverSetup box3 3 (.geometry (Sdf.dball 0 0 0 1) (List.replicate 6 (.flt 1)) none)
    (.scalar (1 / 10)) [("max_iter", .num (.int 7))] = .ok s ∧ s.2 = 7 := by
  refine ⟨(⟨Sdf.dball 0 0 0 1, fun _ => 1 / 10, List.replicate 6 1, 1 / 10, none, true, (true, false)⟩, 7), ?_, rfl⟩
  have hl : List.lookup "verbose" [("max_iter", Py.num (Num.int 7))] = none := by
    rw [List.lookup_cons, show ("verbose" == "max_iter") = false by decide]; rfl
  simp [sliverSetup, parseKwargs, knownNames, getOpt, defaults, hl, asNum, Num.val, selectVerbosity, unpackDomain,
    unpackSizing, checkBbox, checkFloats, mergeBbox, Rebuild, maxIterOf, List.replicate, bind, Except.bind, pure, Except.pure]
  norm_num

end SM.Gen
