import Verif.Props.SatelliteEx

/-!
# C147: the order and the names of variables, shocks and equations

If the variables are renamed or declared in another order, and `gen_sys` succeeds, then, with the same results of the external routines, it builds the same tables
(`Rename.succeeded`).  For arbitrary results of the external routines the transitions agree whenever the linear solutions do.
-/

set_option autoImplicit false
set_option linter.unusedSectionVars false
set_option linter.unusedSimpArgs false

namespace Pydsge

open Matrix Pydsge.Engine Pydsge.Spec Pydsge.Tools Pydsge.GenSys

variable {E ν ε o K : Type} [Fintype E] [Fintype ν] [Fintype ε] [Fintype o]
  [DecidableEq E] [DecidableEq ν] [DecidableEq ε] [Field K] [LinearOrder K] [IsStrictOrderedRing K]
variable {H z p : Type} [DecidableEq H] [Fintype H] [Fintype z] [Fintype p] [DecidableEq z] [DecidableEq p]
variable {E' ν' ε' o' : Type} [Fintype E'] [Fintype ν'] [Fintype ε'] [Fintype o'] [DecidableEq E'] [DecidableEq ν'] [DecidableEq ε']
  {H' z' p' : Type} [DecidableEq H'] [Fintype H'] [Fintype z'] [Fintype p'] [DecidableEq z'] [DecidableEq p']

/-- The declaration with other names: the equation `i` is `a i`, the variable `v` is `f v`, the shock `e` is `g e`.  (For a permutation of one type: another order.) -/
def Spec.Declared.rename (a : E ≃ E') (f : ν ≃ ν') (g : ε ≃ ε') (D : Declared E ν ε K) : Declared E' ν' ε' K where
  A := fun i v => D.A (a.symm i) (f.symm v)
  B := fun i v => D.B (a.symm i) (f.symm v)
  C := fun i v => D.C (a.symm i) (f.symm v)
  D := fun i e => D.D (a.symm i) (g.symm e)
  cvar := f D.cvar
  rb := fun v => D.rb (f.symm v)
  rc := fun v => D.rc (f.symm v)
  rd := fun e => D.rd (g.symm e)
  xbar := D.xbar

/-- The renamed model contains the model. -/
theorem Spec.contains_rename (a : E ≃ E') (f : ν ≃ ν') (g : ε ≃ ε') (D : Declared E ν ε K) : Contains f g (D.rename a f g) D := by
  have hs : ∀ {α β : Type} [Fintype α] [Fintype β] (q : α ≃ β) (u : α → K) (x : β → K), (∑ y, u (q.symm y) * x y) = ∑ i, u i * x (q i) := by
    intro α β _ _ q u x
    rw [← Equiv.sum_comp q]
    simp
  refine ⟨fun x y w e h => ?_, rfl, fun x => ?_, fun x => ?_, fun e => ?_, rfl⟩
  · funext i
    have := congrFun h (a i)
    simp only [Pi.add_apply, mulVec, dotProduct, Declared.rename, Equiv.symm_apply_apply, hs, Pi.zero_apply] at this
    simpa only [Pi.add_apply, mulVec, dotProduct, Function.comp, Pi.zero_apply] using this
  · simp only [dotProduct, Declared.rename, hs, Function.comp]
  · simp only [dotProduct, Declared.rename, hs, Function.comp]
  · simp only [dotProduct, Declared.rename, hs, Function.comp]

section
variable {D : Declared E ν ε K} {Z0 : Matrix o ν K} {Z1 : o → K} {tol : K} [DecidablePred (inall tol (yaml D Z0 Z1))]
  {lay : Layout tol (yaml D Z0 Z1) H z p}
  {orc : Oracle (Rows E H ε) (z ⊕ ε) p K} {lMax kMax : Nat} {sched : Nat → List Nat} {mod : Model z ε p o K}
variable {a : E ≃ E'} {f : ν ≃ ν'} {g : ε ≃ ε'} {Z0' : Matrix o' ν' K} {Z1' : o' → K} {tol' : K} [DecidablePred (inall tol' (yaml (D.rename a f g) Z0' Z1'))]
  {lay' : Layout tol' (yaml (D.rename a f g) Z0' Z1') H' z' p'}
  {orc' : Oracle (Rows E' H' ε') (z' ⊕ ε') p' K} {lMax' kMax' : Nat} {sched' : Nat → List Nat} {mod' : Model z' ε' p' o' K}

theorem rename_lags (hlag : Spec.LagsNotExpected D) : Spec.LagsNotExpected (D.rename a f g) :=
  fun _ hv _ => hlag _ hv _

theorem rename_self : (D.rename a f g).rb (D.rename a f g).cvar = D.rb D.cvar := by
  show D.rb (f.symm (f D.cvar)) = _
  rw [Equiv.symm_apply_apply]

/-- **C147**: with variables, shocks and equations renamed or reordered, the transition finds the same equilibrium, reports the same flag and gives every variable
the same value. -/
theorem C147_transition (h : Succeeded lay orc lMax kMax sched mod) (h' : Succeeded lay' orc' lMax kMax sched' mod') (hk1 : 1 ≤ kMax)
    (hlin : Spec.SameLinearCore f g lay mod lay' mod') (hlag : Spec.LagsNotExpected D) (hself : D.rb D.cvar ≠ 1)
    {st : p ⊕ z → K} {st' : p' ⊕ z' → K} (hst : ∀ v, lagVal lay st v = lagVal lay' st' (f v)) {eps : ε → K} {eps' : ε' → K} (he : ∀ e, eps e = eps' (g e)) :
    ∃ r r', tFunc mod st eps .none false = .ok r ∧ tFunc mod' st' eps' .none false = .ok r' ∧ r.l = r'.l ∧ r.k = r'.k ∧ r.flag = r'.flag ∧
      (∀ v, lay.val r.state (.inl v) = lay'.val r'.state (.inl (f v))) ∧ ∀ v, lagVal lay r.state v = lagVal lay' r'.state (f v) := by
  have he' : eps = eps' ∘ g := funext he
  subst he'
  obtain ⟨r, r', h1, h2, h3, h4, h5, h6, h7⟩ := C140_core_transition h h' hk1 (contains_rename a f g D) hlin hlag (rename_lags hlag) hself rename_self
    (funext hst) eps'
  exact ⟨r, r', h1, h2, h3, h4, h5, h6, congrFun h7⟩

/-- **C147** for simulations. -/
theorem C147_simulation (h : Succeeded lay orc lMax kMax sched mod) (h' : Succeeded lay' orc' lMax kMax sched' mod') (hk1 : 1 ≤ kMax)
    (hlin : Spec.SameLinearCore f g lay mod lay' mod') (hlag : Spec.LagsNotExpected D) (hself : D.rb D.cvar ≠ 1) (es' : List (ε' → K))
    {st : p ⊕ z → K} {st' : p' ⊕ z' → K} (hst : ∀ v, lagVal lay st v = lagVal lay' st' (f v)) :
    ∃ res res', simLoop mod false st (es'.map (· ∘ g)) = .ok res ∧ simLoop mod' false st' es' = .ok res' ∧ res.LK = res'.LK ∧ res.flag = res'.flag ∧
      res.X.tail.map (fun x v => lay.val x (.inl v)) = res'.X.tail.map (fun x v => lay'.val x (.inl (f v))) :=
  C140_core_simulation h h' hk1 (contains_rename a f g D) hlin hlag (rename_lags hlag) hself rename_self es' (funext hst)

/-- **C147**: the linear solutions agree if both models return to the steady state and the declared equations have one such path. -/
theorem C147_linear_of_stable (h : Succeeded lay orc lMax kMax sched mod) (h' : Succeeded lay' orc' lMax' kMax' sched' mod')
    (hlag : Spec.LagsNotExpected D) (hself : D.rb D.cvar ≠ 1) (hs : Spec.LinearStable mod) (hs' : Spec.LinearStable mod') (hdet : Spec.Determinate Spec.DiesOut (Spec.asSolved D)) :
    Spec.SameLinearCore f g lay mod lay' mod' :=
  C140_linear_of_stable h h' (contains_rename a f g D) hlag (rename_lags hlag) hself rename_self hs hs' hdet

end

/-! ## With the same results of the external routines -/

namespace Rename

variable {D : Declared E ν ε K} {Z0 : Matrix o ν K} {Z1 : o → K} {tol : K} (f : ν ≃ ν')

/-- Other names of variables only. -/
abbrev decl (D : Declared E ν ε K) : Declared E ν' ε K := D.rename (.refl E) f (.refl ε)

abbrev obs (Z0 : Matrix o ν K) : Matrix o ν' K := fun i v => Z0 i (f.symm v)

abbrev inp' (D : Declared E ν ε K) (Z0 : Matrix o ν K) (Z1 : o → K) : Input E ν' ε o K := yaml (decl f D) (obs f Z0) Z1

def col : Cols ν H ε → Cols ν' H ε := Sum.map (Sum.map f id) id

theorem inall_iff (v : ν') : inall tol (inp' f D Z0 Z1) v ↔ inall tol (yaml D Z0 Z1) (f.symm v) := Iff.rfl

variable [hdec : DecidablePred (inall tol (yaml D Z0 Z1))]

instance decInst : DecidablePred (inall tol (inp' f D Z0 Z1)) := fun v => decidable_of_iff _ (inall_iff f v).symm

theorem AA1_eq (r : (E ⊕ H) ⊕ ε) (y : Cols ν H ε) : AA1 (H := H) (inp' f D Z0 Z1) r (col f y) = AA1 (H := H) (yaml D Z0 Z1) r y := by
  rcases r with (e | b) | e <;> rcases y with (v | b') | e' <;> simp [AA1, col, yaml, Input.ofYaml, Declared.rename]

theorem BB1_eq (hyb : H → ν) (r : (E ⊕ H) ⊕ ε) (y : Cols ν H ε) :
    BB1 (inp' f D Z0 Z1) (f ∘ hyb) r (col f y) = BB1 (yaml D Z0 Z1) hyb r y := by
  rcases r with (e | b) | e <;> rcases y with (v | b') | e' <;> simp [BB1, col, yaml, Input.ofYaml, Declared.rename]

theorem CC1_eq (hyb : H → ν) (r : (E ⊕ H) ⊕ ε) (y : Cols ν H ε) :
    CC1 tol (inp' f D Z0 Z1) (f ∘ hyb) r (col f y) = CC1 tol (yaml D Z0 Z1) hyb r y := by
  rcases r with (e | b) | e <;> rcases y with (v | b') | e'
  · simp only [CC1, col, Sum.map_inl]
    by_cases h : inall tol (yaml D Z0 Z1) v
    · rw [if_pos h, if_pos ((inall_iff f _).2 (by rwa [Equiv.symm_apply_apply]))]
    · rw [if_neg h, if_neg (fun h' => h (by have := (inall_iff f _).1 h'; rwa [Equiv.symm_apply_apply] at this))]
      simp [yaml, Input.ofYaml, Declared.rename]
  all_goals simp [CC1, col, yaml, Input.ofYaml, Declared.rename]

theorem fb0_eq (v : ν) : (inp' f D Z0 Z1).fb0 (f v) = (yaml D Z0 Z1).fb0 v := by
  simp [yaml, Input.ofYaml, Declared.rename]

theorem fbN_eq (v : ν) : fbN (inp' f D Z0 Z1) (f v) = fbN (yaml D Z0 Z1) v := by
  unfold fbN
  rw [show (inp' f D Z0 Z1).cvar = f (yaml D Z0 Z1).cvar from rfl, fb0_eq, fb0_eq]

theorem fcN_eq (v : ν) : fcN (inp' f D Z0 Z1) (f v) = fcN (yaml D Z0 Z1) v := by
  unfold fcN
  rw [show (inp' f D Z0 Z1).cvar = f (yaml D Z0 Z1).cvar from rfl, fb0_eq]
  simp [yaml, Input.ofYaml, Declared.rename]

theorem fbY_eq (y : Cols ν H ε) : fbY (H := H) (inp' f D Z0 Z1) (col f y) = fbY (H := H) (yaml D Z0 Z1) y := by
  rcases y with (v | b') | e'
  · exact fbN_eq f v
  · rfl
  · rfl

theorem fcY_eq (y : Cols ν H ε) : fcY (H := H) (inp' f D Z0 Z1) (col f y) = fcY (H := H) (yaml D Z0 Z1) y := by
  rcases y with (v | b') | e'
  · exact congrArg Neg.neg (fcN_eq f v)
  · rfl
  · rfl

theorem inq_iff (hyb : H → ν) (y : Cols ν H ε) : inq tol (inp' f D Z0 Z1) (f ∘ hyb) (col f y) ↔ inq tol (yaml D Z0 Z1) hyb y := by
  unfold inq fast0Col
  simp only [CC1_eq, fcY_eq]

theorem inp_iff (hyb : H → ν) (y : Cols ν H ε) : inp tol (inp' f D Z0 Z1) (f ∘ hyb) (col f y) ↔ inp tol (yaml D Z0 Z1) hyb y := by
  unfold inp
  rw [inq_iff]
  unfold fast0Col
  simp only [AA1_eq, BB1_eq]

variable (lay : Layout tol (yaml D Z0 Z1) H z p)

theorem map_surj (w : ν' ⊕ H) : ∃ u : ν ⊕ H, w = Sum.map f id u := by
  rcases w with v | b
  · exact ⟨.inl (f.symm v), by simp⟩
  · exact ⟨.inr b, rfl⟩

theorem map_inj : Function.Injective (Sum.map f id : ν ⊕ H → ν' ⊕ H) := Sum.map_injective.2 ⟨f.injective, Function.injective_id⟩

def layout : Layout tol (inp' f D Z0 Z1) H z p where
  hyb := f ∘ lay.hyb
  zi := Sum.map f id ∘ lay.zi
  pi := Sum.map f id ∘ lay.pi
  hyb_inj := f.injective.comp lay.hyb_inj
  hyb_range := fun v => by
    rw [inall_iff, ← lay.hyb_range]
    simp only [Function.comp, Equiv.eq_symm_apply]
  zi_inj := (map_inj f).comp lay.zi_inj
  zi_range := fun w => by
    obtain ⟨u, rfl⟩ := map_surj f w
    rw [show (Sum.inl (Sum.map f id u) : Cols ν' H ε) = col f (.inl u) from rfl, inq_iff, ← lay.zi_range]
    simp only [Function.comp, (map_inj f).eq_iff]
  pi_inj := (map_inj f).comp lay.pi_inj
  pi_range := fun w => by
    obtain ⟨u, rfl⟩ := map_surj f w
    rw [show (Sum.inl (Sum.map f id u) : Cols ν' H ε) = col f (.inl u) from rfl, inp_iff, ← lay.pi_range]
    simp only [Function.comp, (map_inj f).eq_iff]
  shocks := fun e => (inq_iff f lay.hyb (.inr e)).2 (lay.shocks e)
  square := lay.square

theorem qi_eq (j : z ⊕ ε) : qi (layout f lay) j = col f (qi lay j) := by rcases j with j | j <;> rfl

theorem pi_eq (j : p) : (Sum.inl ((layout f lay).pi j) : Cols ν' H ε) = col f (.inl (lay.pi j)) := rfl

theorem col_inj : Function.Injective (col f : Cols ν H ε → Cols ν' H ε) := Sum.map_injective.2 ⟨map_inj f, Function.injective_id⟩

theorem AAc_eq (r : Rows E H ε) (y : Cols ν H ε) : AAc (H := H) (inp' f D Z0 Z1) r (col f y) = AAc (H := H) (yaml D Z0 Z1) r y := by
  rcases r with r | r
  · exact AA1_eq f r y
  · rfl

theorem BBU_eq (hyb : H → ν) (r : Rows E H ε) (y : Cols ν H ε) : BBU (inp' f D Z0 Z1) (f ∘ hyb) r (col f y) = BBU (yaml D Z0 Z1) hyb r y := by
  rcases r with r | r
  · exact BB1_eq f hyb r y
  · exact fbY_eq f y

theorem CCU_eq (hyb : H → ν) (r : Rows E H ε) (y : Cols ν H ε) : CCU tol (inp' f D Z0 Z1) (f ∘ hyb) r (col f y) = CCU tol (yaml D Z0 Z1) hyb r y := by
  rcases r with r | r
  · exact CC1_eq f hyb r y
  · exact fcY_eq f y

theorem BBR_eq (hyb : H → ν) (r : Rows E H ε) (y : Cols ν H ε) : BBR (inp' f D Z0 Z1) (f ∘ hyb) r (col f y) = BBR (yaml D Z0 Z1) hyb r y := by
  rcases r with r | r
  · exact BB1_eq f hyb r y
  · show (if col f y = col f (.inl (.inl D.cvar)) then (-1 : K) else 0) = if y = .inl (.inl D.cvar) then -1 else 0
    simp only [(col_inj f).eq_iff]

theorem CCR_eq (hyb : H → ν) (r : Rows E H ε) (y : Cols ν H ε) : CCR tol (inp' f D Z0 Z1) (f ∘ hyb) r (col f y) = CCR tol (yaml D Z0 Z1) hyb r y := by
  rcases r with r | r
  · exact CC1_eq f hyb r y
  · rfl

theorem PU_eq : PU (layout f lay) = PU lay := by
  ext r j
  rcases j with j | j
  · show -(BBU _ (f ∘ lay.hyb) r (qi (layout f lay) j)) = _
    rw [qi_eq, BBU_eq]; rfl
  · show -(AAc _ r (.inl ((layout f lay).pi j))) = _
    rw [pi_eq, AAc_eq]; rfl

theorem MU_eq : MU (layout f lay) = MU lay := by
  ext r j
  rcases j with j | j
  · show CCU tol _ (f ∘ lay.hyb) r (qi (layout f lay) j) = _
    rw [qi_eq, CCU_eq]; rfl
  · show BBU _ (f ∘ lay.hyb) r (.inl ((layout f lay).pi j)) = _
    rw [pi_eq, BBU_eq]; rfl

theorem PR_eq : PR (layout f lay) = PR lay := by
  ext r j
  rcases j with j | j
  · show -(BBR _ (f ∘ lay.hyb) r (qi (layout f lay) j)) = _
    rw [qi_eq, BBR_eq]; rfl
  · show -(AAc _ r (.inl ((layout f lay).pi j))) = _
    rw [pi_eq, AAc_eq]; rfl

theorem MR_eq : MR (layout f lay) = MR lay := by
  ext r j
  rcases j with j | j
  · show CCR tol _ (f ∘ lay.hyb) r (qi (layout f lay) j) = _
    rw [qi_eq, CCR_eq]; rfl
  · show BBR _ (f ∘ lay.hyb) r (.inl ((layout f lay).pi j)) = _
    rw [pi_eq, BBR_eq]; rfl

theorem ff_eq : ff (layout f lay) = ff lay := by
  unfold ff
  have h1 : ∀ j, (qi (layout f lay) j = .inl (.inl (inp' f D Z0 Z1).cvar)) ↔ (qi lay j = .inl (.inl (yaml D Z0 Z1).cvar)) := fun j => by
    rw [qi_eq]
    exact (col_inj f).eq_iff (b := .inl (.inl D.cvar))
  have h2 : ∀ j, ((layout f lay).pi j = .inl (inp' f D Z0 Z1).cvar) ↔ (lay.pi j = .inl (yaml D Z0 Z1).cvar) := fun j =>
    (map_inj f).eq_iff (b := .inl D.cvar)
  congr 1
  · funext j
    simp only [h1]
    simp only [qi_eq, fbY_eq]
  · funext j
    simp only [h2, pi_eq, fbY_eq]
  · funext j
    simp only [qi_eq, fcY_eq]

theorem hx_eq : hx (layout f lay) = hx lay := by
  unfold hx
  simp only [layout, Function.comp]
  refine Prod.ext ?_ (Prod.ext ?_ rfl)
  · funext i j
    dsimp only
    rcases lay.pi j with v | b <;> simp [yaml, Input.ofYaml, obs]
  · funext i j
    dsimp only
    rcases lay.zi j with v | b <;> simp [yaml, Input.ofYaml, obs]

variable {orc : Oracle (Rows E H ε) (z ⊕ ε) p K} {lMax kMax : Nat} {sched : Nat → List Nat} {mod : Model z ε p o K}

theorem sys_eq : sysOf (layout f lay) orc = sysOf lay orc := by
  unfold sysOf
  simp only [MU_eq, MR_eq, PU_eq, PR_eq]
  rfl

end Rename

/-- **C147**, the solution: with variables renamed, `gen_sys` builds the same matrices and tables if the external routines give the same results; each variable
keeps its position. -/
theorem C147_same_tables {D : Declared E ν ε K} {Z0 : Matrix o ν K} {Z1 : o → K} {tol : K} [DecidablePred (inall tol (yaml D Z0 Z1))]
    (f : ν ≃ ν') (lay : Layout tol (yaml D Z0 Z1) H z p) (orc : Oracle (Rows E H ε) (z ⊕ ε) p K) (lMax kMax : Nat) (sched : Nat → List Nat) :
    genSys (Rename.layout f lay) orc lMax kMax sched = genSys lay orc lMax kMax sched ∧
    ∀ st v, (Rename.layout f lay).val st (.inl (f v)) = lay.val st (.inl v) := by
  constructor
  · unfold genSys
    rw [Rename.sys_eq, Rename.ff_eq, Rename.hx_eq]
    rfl
  · intro st v
    have h1 : ∀ w : ν ⊕ H, (Sum.map f id w = Sum.inl (f v)) ↔ (w = .inl v) := fun w => (Rename.map_inj f).eq_iff (b := .inl v)
    unfold Layout.val
    simp only [Rename.layout, Function.comp, h1]

theorem Rename.succeeded {D : Declared E ν ε K} {Z0 : Matrix o ν K} {Z1 : o → K} {tol : K} [DecidablePred (inall tol (yaml D Z0 Z1))]
    (f : ν ≃ ν') {lay : Layout tol (yaml D Z0 Z1) H z p} {orc : Oracle (Rows E H ε) (z ⊕ ε) p K} {lMax kMax : Nat} {sched : Nat → List Nat}
    {mod : Model z ε p o K} (h : Succeeded lay orc lMax kMax sched mod) : Succeeded (Rename.layout f lay) orc lMax kMax sched mod where
  gen := by rw [(C147_same_tables f lay orc lMax kMax sched).1]; exact h.gen
  perm := h.perm
  orc := by
    refine ⟨?_, ?_, ?_⟩
    · have := h.orc.rqU; rwa [← Rename.MU_eq f] at this
    · have := h.orc.rqR; rwa [← Rename.MR_eq f] at this
    · intro a b hk
      rw [Rename.sys_eq] at hk ⊢
      exact h.orc.klein a b hk
  noTiny := by
    obtain ⟨a1, a2, a3, a4, a5, a6, a7, a8⟩ := h.noTiny
    refine ⟨a1, a2, fun i j => a3 i _, fun i j => a4 i _, fun i j => a5 i _, a6, fun j => ?_, a8⟩
    have := Rename.fcN_eq (D := D) (Z0 := Z0) (Z1 := Z1) f (f.symm j)
    rw [Equiv.apply_symm_apply] at this
    rw [this]
    exact a7 _
  square := by rw [← Fintype.card_congr f]; exact h.square
  states := h.states

/-- **C147**: the hypotheses are met by the first example with its variables declared in the other order; after the shock `-9/4` the constraint binds. -/
theorem C147_hypotheses_met : ∃ mod, Succeeded Ex1.lay Ex1.orc 2 30 (serial 30) mod ∧
    Succeeded (Rename.layout (Equiv.swap 0 1) Ex1.lay) Ex1.orc 2 30 (serial 30) mod ∧
    Spec.SameLinearCore (Equiv.swap (0 : Fin 2) 1) (Equiv.refl (Fin 1)) Ex1.lay mod (Rename.layout (Equiv.swap 0 1) Ex1.lay) mod ∧ Spec.LagsNotExpected Ex1.decl ∧
    Ex1.decl.rb Ex1.decl.cvar ≠ 1 ∧ (Rename.decl (Equiv.swap 0 1) Ex1.decl).cvar = 0 ∧ Ex1.decl.cvar = 1 ∧
    (∀ v, lagVal Ex1.lay 0 v = lagVal (Rename.layout (Equiv.swap 0 1) Ex1.lay) 0 (Equiv.swap 0 1 v)) ∧
    ∃ r, tFunc mod 0 (fun _ => -9/4) .none false = .ok r ∧ r.flag = 0 ∧ r.k = 1 := by
  obtain ⟨mod, h⟩ := Ex1.succeeds 2 30 (Ex1.serial_perm 2 30)
  have h' := Rename.succeeded (Equiv.swap 0 1) h
  have hs1 : Ex1.decl.rb Ex1.decl.cvar ≠ 1 := by show (if (1 : Fin 2) = 0 then (1 : Rat) else 0) ≠ 1; simp
  obtain ⟨r, g1, g2, g3, g4, -, -⟩ := Ex1.binding_run 2 30 (by omega) (by omega) h
  refine ⟨mod, h, h', C147_linear_of_stable h h' (.of_rc rfl) hs1 (Ex1.stable h) (Ex1.stable h) Ex1.determinate', .of_rc rfl, hs1, rfl, rfl, fun v => ?_, r, g1, g4, g3⟩
  unfold lagVal Layout.val
  simp

end Pydsge
