import Verif.Props.Imposed
import Verif.Props.Sim
import Verif.Examples.Ex3Run
import Verif.Props.Stats

/-!
# C183: exogenous processes follow their own law, whatever the constraint does
-/

set_option autoImplicit false
set_option linter.unusedSectionVars false
set_option linter.unusedSimpArgs false

namespace Pydsge

open Matrix Pydsge.Engine Pydsge.Spec Pydsge.Tools Pydsge.GenSys

/-! ## Specification -/

namespace Spec

/-- A process of its own: `B y + C y(-1) + D u = 0`. -/
structure Process (e v u K : Type) where
  B : Matrix e v K
  C : Matrix e v K
  D : Matrix e u K

section
variable {Eb Vb εb K : Type} [Fintype Vb] [Fintype εb] [Field K]

/-- One period of the process. -/
def Process.Step (P : Process Eb Vb εb K) (ylag : Vb → K) (u : εb → K) (y : Vb → K) : Prop :=
  P.B *ᵥ y + P.C *ᵥ ylag + P.D *ᵥ u = 0

/-- A path of the process after `ylag`, with the innovations `us`. -/
def Process.Path (P : Process Eb Vb εb K) : (Vb → K) → List (εb → K) → List (Vb → K) → Prop
  | _, [], ys => ys = []
  | ylag, u :: us, ys => ∃ y rest, ys = y :: rest ∧ P.Step ylag u y ∧ P.Path y us rest

/-- The past and the innovations decide the present. -/
def Process.Determined (P : Process Eb Vb εb K) : Prop := ∀ y, P.B *ᵥ y = 0 → y = 0

variable {E ν ε : Type}

/-- The equations `e` of the declared model are the process `P` for the variables `v` and the shocks `u`: no leads, and no other variables or shocks. -/
structure HasProcess (D : Declared E ν ε K) (P : Process Eb Vb εb K) (e : Eb → E) (v : Vb → ν) (u : εb → ε) : Prop where
  inj : Function.Injective v
  injU : Function.Injective u
  eA : ∀ i w, D.A (e i) w = 0
  eB : ∀ i a, D.B (e i) (v a) = P.B i a
  eC : ∀ i a, D.C (e i) (v a) = P.C i a
  eD : ∀ i a, D.D (e i) (u a) = P.D i a
  eB0 : ∀ i w, w ∉ Set.range v → D.B (e i) w = 0
  eC0 : ∀ i w, w ∉ Set.range v → D.C (e i) w = 0
  eD0 : ∀ i w, w ∉ Set.range u → D.D (e i) w = 0

end
end Spec

section Paths
variable {Eb Vb εb K : Type} [Fintype Vb] [Fintype εb] [Field K]

/-- A determined process has one path. -/
theorem C183_one_path (P : Spec.Process Eb Vb εb K) (hP : P.Determined) :
    ∀ (us : List (εb → K)) (y0 : Vb → K) (ys ys' : List (Vb → K)), P.Path y0 us ys → P.Path y0 us ys' → ys = ys' := by
  intro us
  induction us with
  | nil => intro y0 ys ys' h h'; rw [show ys = [] from h, show ys' = [] from h']
  | cons u us ih =>
    rintro y0 ys ys' ⟨y, r, rfl, h1, h2⟩ ⟨y', r', rfl, h1', h2'⟩
    have : y - y' = 0 := by
      apply hP
      rw [mulVec_sub]
      unfold Spec.Process.Step at h1 h1'
      funext i
      have a := congrFun h1 i
      have b := congrFun h1' i
      simp only [Pi.add_apply, Pi.zero_apply, Pi.sub_apply] at a b ⊢
      linear_combination a - b
    have hy : y = y' := sub_eq_zero.1 this
    subst hy
    rw [ih y r r' h2 h2']

end Paths

variable {E ν ε o K : Type} [Fintype E] [Fintype ν] [Fintype ε] [Fintype o]
  [DecidableEq E] [DecidableEq ν] [DecidableEq ε] [Field K] [LinearOrder K] [IsStrictOrderedRing K]
variable {H z p : Type} [DecidableEq H] [Fintype H] [Fintype z] [Fintype p] [DecidableEq z] [DecidableEq p]
variable {Eb Vb εb : Type} [Fintype Vb] [Fintype εb]

theorem Spec.HasProcess.eqs {D : Declared E ν ε K} {P : Spec.Process Eb Vb εb K} {e : Eb → E} {v : Vb → ν} {u : εb → ε}
    (h : Spec.HasProcess D P e v u) {xlag : ν → K} {eps : ε → K} {x : Nat → ν → K} (hx : EqsHold D xlag eps x 0) :
    P.Step (xlag ∘ v) (eps ∘ u) (x 0 ∘ v) := by
  funext i
  have h0 := congrFun hx (e i)
  simp only [Pi.add_apply, Pi.zero_apply, mulVec, dotProduct, prev, shockAt, h.eA, zero_mul, Finset.sum_const_zero, zero_add] at h0
  simp only [Pi.add_apply, Pi.zero_apply, mulVec, dotProduct, Function.comp]
  rw [Fintype.sum_of_injective v h.inj (fun a => P.B i a * x 0 (v a)) (fun w => D.B (e i) w * x 0 w)
      (fun w hw => by rw [h.eB0 i w hw, zero_mul]) (fun a => by rw [h.eB]),
    Fintype.sum_of_injective v h.inj (fun a => P.C i a * xlag (v a)) (fun w => D.C (e i) w * xlag w)
      (fun w hw => by rw [h.eC0 i w hw, zero_mul]) (fun a => by rw [h.eC]),
    Fintype.sum_of_injective u h.injU (fun a => P.D i a * eps (u a)) (fun w => D.D (e i) w * eps w)
      (fun w hw => by rw [h.eD0 i w hw, zero_mul]) (fun a => by rw [h.eD])]
  exact h0

section
variable {tol : K} {m : Input E ν ε o K} [DecidablePred (inall tol m)] {lay : Layout tol m H z p}
  {orc : Oracle (Rows E H ε) (z ⊕ ε) p K} {lMax kMax : Nat} {sched : Nat → List Nat} {mod : Model z ε p o K}

theorem tFunc_as_pair (mod : Model z ε p o K) (st : p ⊕ z → K) (eps : ε → K) (sk : SetK) (lin : Bool) :
    tFunc mod st eps sk lin = tFunc mod st eps (.pair (setLK lin sk).1 (setLK lin sk).2) false := by
  unfold tFunc tFuncRaw
  simp [setLK]

theorem path_of_nat_pair (h : Succeeded lay orc lMax kMax sched mod) {st : p ⊕ z → K} {eps : ε → K} {l k : Nat} (hl : l ≤ lMax) (hk : k ≤ kMax)
    {r : Step z p K} (hr : tFunc mod st eps (.pair l k) false = .ok r) : ∃ X, ExpectedPath mod l k st eps X ∧ X 0 = r.state := by
  obtain ⟨X, hX⟩ := expectedPath_exists h hl hk st eps
  refine ⟨X, hX, ?_⟩
  obtain ⟨r', h1, h2⟩ := hX 0
  have e0 : elapsed l k 0 = (l, k) := by unfold elapsed; simp
  rw [e0] at h1
  have h1 : tFunc mod st eps (.pair l k) false = .ok r' := h1
  rw [hr] at h1
  rw [h2, Except.ok.inj h1]

/-- Whatever is imposed, found or left out: a transition is the first period of an expected path under some spell inside the tables. -/
theorem path_of_transition (h : Succeeded lay orc lMax kMax sched mod) (hk1 : 1 ≤ kMax) {st : p ⊕ z → K} {eps : ε → K} {sk : SetK} {lin : Bool}
    {r : Step z p K} (hr : tFunc mod st eps sk lin = .ok r) :
    ∃ l k X, l ≤ lMax ∧ k ≤ kMax ∧ ExpectedPath mod l k st eps X ∧ X 0 = r.state := by
  have pair : ∀ (l k : Int) (r : Step z p K), k ≠ -1 → tFunc mod st eps (.pair l k) false = .ok r →
      ∃ l k X, l ≤ lMax ∧ k ≤ kMax ∧ ExpectedPath mod l k st eps X ∧ X 0 = r.state := by
    intro l k r hk hr
    by_cases hb : -((lMax : Int) + 1) ≤ l ∧ l ≤ lMax ∧ -((kMax : Int) + 1) ≤ k ∧ k ≤ kMax
    · rw [tFunc_wrap h st eps hk hb.1 hb.2.1 hb.2.2.1 hb.2.2.2] at hr
      have a1 : 0 ≤ l % ((lMax : Int) + 1) := Int.emod_nonneg _ (by omega)
      have a2 : l % ((lMax : Int) + 1) < lMax + 1 := Int.emod_lt_of_pos _ (by omega)
      have b1 : 0 ≤ k % ((kMax : Int) + 1) := Int.emod_nonneg _ (by omega)
      have b2 : k % ((kMax : Int) + 1) < kMax + 1 := Int.emod_lt_of_pos _ (by omega)
      obtain ⟨l', hl'⟩ := Int.eq_ofNat_of_zero_le a1
      obtain ⟨k', hk'⟩ := Int.eq_ofNat_of_zero_le b1
      rw [hl', hk'] at hr
      obtain ⟨X, hX, h0⟩ := path_of_nat_pair h (by omega : l' ≤ lMax) (by omega : k' ≤ kMax) hr
      exact ⟨l', k', X, by omega, by omega, hX, h0⟩
    · rw [tFunc_off h st eps hk hb] at hr
      cases hr
  rw [tFunc_as_pair] at hr
  by_cases hk : (setLK lin sk).2 = -1
  · rw [hk, tFunc_minus_one] at hr
    obtain ⟨r', h1, h2, _⟩ := C14_impose_found_equilibrium h hk1 st eps r hr
    obtain ⟨l, k, X, a, b, c, d⟩ := pair r.l r.k r' (by omega) h1
    exact ⟨l, k, X, a, b, c, d.trans h2⟩
  · exact pair _ _ r hk hr

end

section
variable {D : Declared E ν ε K} {Z0 : Matrix o ν K} {Z1 : o → K} {tol : K} [DecidablePred (inall tol (yaml D Z0 Z1))]
  {lay : Layout tol (yaml D Z0 Z1) H z p} {orc : Oracle (Rows E H ε) (z ⊕ ε) p K} {lMax kMax : Nat} {sched : Nat → List Nat}
  {mod : Model z ε p o K} {P : Spec.Process Eb Vb εb K} {e : Eb → E} {v : Vb → ν} {u : εb → ε}

/-- **C183**, one period: whatever spell is found or imposed, with or without the constraint (`linear`), and with whatever flag, the process makes a
step of its own. -/
theorem C183_transition (h : Succeeded lay orc lMax kMax sched mod) (hk1 : 1 ≤ kMax) (hlag : Spec.LagsNotExpected D) (hself : D.rb D.cvar ≠ 1)
    (hP : Spec.HasProcess D P e v u) {st : p ⊕ z → K} {eps : ε → K} {sk : SetK} {lin : Bool} {r : Step z p K}
    (hr : tFunc mod st eps sk lin = .ok r) :
    P.Step (lagVal lay st ∘ v) (eps ∘ u) (fun a => lay.val r.state (.inl (v a))) ∧
      lagVal lay r.state = fun w => lay.val r.state (.inl w) := by
  obtain ⟨l, k, X, hl, hk, hX, h0⟩ := path_of_transition h hk1 hr
  have hs := C148_paths_solve h hlag hself hl hk st eps X hX
  have he : EqsHold D (lagVal lay st) eps (fun s w => lay.val (X s) (.inl w)) 0 := hs.eqs 0
  have h1 := hP.eqs he
  have h2 := expected_lagVal h (noLagFwd_of_not_expected hlag) hl hk hX 1
  rw [← h0]
  exact ⟨h1, h2⟩

/-- **C183** for `simulate`: the path of the process is a path by its own law. -/
theorem C183_simulation (h : Succeeded lay orc lMax kMax sched mod) (hk1 : 1 ≤ kMax) (hlag : Spec.LagsNotExpected D) (hself : D.rb D.cvar ≠ 1)
    (hP : Spec.HasProcess D P e v u) (lin : Bool) (es : List (ε → K)) :
    ∀ (st : p ⊕ z → K) (res : SimRes z p K), simLoop mod lin st es = .ok res →
      P.Path (lagVal lay st ∘ v) (es.map (· ∘ u)) (res.X.tail.map fun x a => lay.val x (.inl (v a))) := by
  induction es with
  | nil =>
    intro st res hr
    simp only [simLoop, Except.ok.injEq] at hr
    subst hr
    rfl
  | cons eps es ih =>
    intro st res hr
    simp only [simLoop] at hr
    cases ht : tFunc mod st eps .none lin with
    | error err => rw [ht] at hr; cases hr
    | ok r =>
      rw [ht] at hr
      cases hs : simLoop mod lin r.state es with
      | error err => simp only [hs] at hr; cases hr
      | ok res' =>
        simp only [hs, Except.ok.injEq] at hr
        subst hr
        obtain ⟨h1, h2⟩ := C183_transition h hk1 hlag hself hP ht
        have h3 := ih r.state res' hs
        have hX : ∃ t, res'.X = r.state :: t := by
          cases es with
          | nil => simp only [simLoop, Except.ok.injEq] at hs; subst hs; exact ⟨_, rfl⟩
          | cons e' es =>
            simp only [simLoop] at hs
            cases ht' : tFunc mod r.state e' .none lin with
            | error err => rw [ht'] at hs; cases hs
            | ok r' =>
              rw [ht'] at hs
              cases hs' : simLoop mod lin r'.state es with
              | error err => simp only [hs'] at hs; cases hs
              | ok res'' => simp only [hs', Except.ok.injEq] at hs; subst hs; exact ⟨_, rfl⟩
        obtain ⟨t, hX⟩ := hX
        rw [hX] at h3 ⊢
        rw [h2] at h3
        exact ⟨_, _, rfl, h1, h3⟩

theorem irfs_process (h : Succeeded lay orc lMax kMax sched mod) (hk1 : 1 ≤ kMax) (hlag : Spec.LagsNotExpected D) (hself : D.rb D.cvar ≠ 1)
    (hP : Spec.HasProcess D P e v u) (a : IrfArgs z ε p K) (T : Nat) :
    ∀ (t0 : Nat) (st : IrfState z p K) (xs : List (IrfState z p K)), irfRun mod a t0 st T = .ok xs →
      P.Path (lagVal lay st.state ∘ v) ((List.range' t0 T).map fun t => shkVec a.shocks t ∘ u) (xs.map fun x w => lay.val x.state (.inl (v w))) := by
  induction T with
  | zero =>
    intro t0 st xs hr
    simp only [irfRun, Except.ok.injEq] at hr
    subst hr
    rfl
  | succ n ih =>
    intro t0 st xs hr
    unfold irfRun at hr
    cases hs : irfStep mod a st t0 with
    | error e => rw [hs] at hr; cases hr
    | ok st' =>
      rw [hs] at hr
      cases hq : irfRun mod a (t0 + 1) st' n with
      | error e => simp only [hq] at hr; cases hr
      | ok rest =>
        simp only [hq, Except.ok.injEq] at hr
        subst hr
        have : ∃ sk r, tFunc mod st.state (shkVec a.shocks t0) sk a.linear = .ok r ∧ r.state = st'.state := by
          unfold irfStep at hs
          simp only at hs
          split at hs
          · cases hs
          · next eff mult _ =>
            split at hs
            · cases hs
            · split at hs
              · cases hs
              · next r hr => exact ⟨eff, r, hr, by rw [← Except.ok.inj hs]⟩
        obtain ⟨sk, r, h1, h2⟩ := this
        obtain ⟨h3, h4⟩ := C183_transition h hk1 hlag hself hP h1
        rw [h2] at h3 h4
        have h5 := ih (t0 + 1) st' rest hq
        rw [h4] at h5
        rw [List.range'_succ]
        exact ⟨_, _, rfl, h3, h5⟩

/-- **C183** for `irfs`: likewise, with every setting: imposed spells, forced continuation, linear or not. -/
theorem C183_irfs (h : Succeeded lay orc lMax kMax sched mod) (hk1 : 1 ≤ kMax) (hlag : Spec.LagsNotExpected D) (hself : D.rb D.cvar ≠ 1)
    (hP : Spec.HasProcess D P e v u) (a : IrfArgs z ε p K) (st : p ⊕ z → K) (T : Nat) {xs : List (IrfState z p K)}
    (hx : irfs mod a st T = .ok xs) (us : List (ε → K)) (hus : us.length = T) (hs : ∀ t w, us[t]? = some w → Spec.ShocksAt a.shocks t w) :
    P.Path (lagVal lay st ∘ v) (us.map (· ∘ u)) (xs.map fun x w => lay.val x.state (.inl (v w))) := by
  have h1 := irfs_process h hk1 hlag hself hP a T 0 ⟨st, 0, 0, 0, false⟩ xs hx
  have : (List.range' 0 T).map (fun t => shkVec a.shocks t ∘ u) = us.map (· ∘ u) := by
    apply List.ext_getElem?
    intro t
    rw [List.getElem?_map, List.getElem?_map]
    by_cases ht : t < T
    · obtain ⟨w, hw⟩ : ∃ w, us[t]? = some w := ⟨_, List.getElem?_eq_getElem (by omega)⟩
      rw [hw, (shocksAt_iff _ _ _).1 (hs t w hw), List.getElem?_range' ht]
      simp
    · rw [List.getElem?_eq_none (by simpa using ht), List.getElem?_eq_none (by omega)]
      rfl
  rw [this] at h1
  exact h1

end

section Two
variable {D : Declared E ν ε K} {Z0 : Matrix o ν K} {Z1 : o → K} {tol : K} [DecidablePred (inall tol (yaml D Z0 Z1))]
  {lay : Layout tol (yaml D Z0 Z1) H z p} {orc : Oracle (Rows E H ε) (z ⊕ ε) p K} {lMax kMax : Nat} {sched : Nat → List Nat}
  {mod : Model z ε p o K} {P : Spec.Process Eb Vb εb K} {e : Eb → E} {v : Vb → ν} {u : εb → ε}
variable {E' ν' ε' o' H' z' p' : Type} [Fintype E'] [Fintype ν'] [Fintype ε'] [Fintype o'] [DecidableEq E'] [DecidableEq ν'] [DecidableEq ε']
  [DecidableEq H'] [Fintype H'] [Fintype z'] [Fintype p'] [DecidableEq z'] [DecidableEq p']
variable {D' : Declared E' ν' ε' K} {Z0' : Matrix o' ν' K} {Z1' : o' → K} {tol' : K} [DecidablePred (inall tol' (yaml D' Z0' Z1'))]
  {lay' : Layout tol' (yaml D' Z0' Z1') H' z' p'} {orc' : Oracle (Rows E' H' ε') (z' ⊕ ε') p' K} {lMax' kMax' : Nat}
  {sched' : Nat → List Nat} {mod' : Model z' ε' p' o' K} {e' : Eb → E'} {v' : Vb → ν'} {u' : εb → ε'}

/-- **C183**, two models with the same process: whatever else they contain and wherever their bounds are, with the same past and the same innovations of
the process their simulations agree on it, also if one of them is linear. -/
theorem C183_same_process (h : Succeeded lay orc lMax kMax sched mod) (h' : Succeeded lay' orc' lMax' kMax' sched' mod') (hk1 : 1 ≤ kMax)
    (hk1' : 1 ≤ kMax') (hlag : Spec.LagsNotExpected D) (hlag' : Spec.LagsNotExpected D') (hself : D.rb D.cvar ≠ 1) (hself' : D'.rb D'.cvar ≠ 1)
    (hP : Spec.HasProcess D P e v u) (hP' : Spec.HasProcess D' P e' v' u') (hd : P.Determined) (lin lin' : Bool)
    {es : List (ε → K)} {es' : List (ε' → K)} (hes : es.map (· ∘ u) = es'.map (· ∘ u')) {st : p ⊕ z → K} {st' : p' ⊕ z' → K}
    (hst : lagVal lay st ∘ v = lagVal lay' st' ∘ v') {res : SimRes z p K} {res' : SimRes z' p' K}
    (hr : simLoop mod lin st es = .ok res) (hr' : simLoop mod' lin' st' es' = .ok res') :
    (res.X.tail.map fun x a => lay.val x (.inl (v a))) = res'.X.tail.map fun x a => lay'.val x (.inl (v' a)) := by
  have h1 := C183_simulation h hk1 hlag hself hP lin es st res hr
  have h2 := C183_simulation h' hk1' hlag' hself' hP' lin' es' st' res' hr'
  rw [hst, hes] at h1
  exact C183_one_path P hd _ _ _ _ h1 h2

end Two

/-- The process of the third example model: `w = e`. -/
def Ex3.proc : Spec.Process (Fin 1) (Fin 1) (Fin 1) Rat := ⟨fun _ _ => 1, 0, fun _ _ => -1⟩

/-- Non-vacuity of C183: a model with a determined process, and a run in which a spell lies ahead, other variables move, and the process moves with its
shock alone. -/
theorem C183_hypotheses_met : ∃ mod r, Succeeded Ex3.lay Ex3.orc 3 1 (serial 1) mod ∧ Spec.LagsNotExpected Ex3.decl ∧
    Ex3.decl.rb Ex3.decl.cvar ≠ 1 ∧ Spec.HasProcess Ex3.decl Ex3.proc (fun _ => true) (fun _ => 1) id ∧ Ex3.proc.Determined ∧
    tFunc mod 0 (fun _ => -2) .none false = .ok r ∧ r.l = 1 ∧ r.k = 1 ∧ Ex3.lay.val r.state (.inl 0) = 1 ∧ Ex3.lay.val r.state (.inl 1) = -2 := by
  obtain ⟨mod, h⟩ := ex3_succeeds 3 1
  obtain ⟨r, hr, h1, h2, _, hst⟩ := Ex3.later_run h
  refine ⟨mod, r, h, Spec.LagsNotExpected.of_rc rfl, ?_, ?_, ?_, hr, h1, h2, ?_, ?_⟩
  · show (if (2 : Fin 3) = 0 then (1 : Rat) else 0) ≠ 1
    simp
  · refine ⟨fun a b _ => Subsingleton.elim a b, fun a b h => h, ?_, ?_, ?_, ?_, ?_, ?_, ?_⟩
    · intro i w; simp [Ex3.decl]
    · intro i a; simp [Ex3.decl, Ex3.proc]
    · intro i a; simp [Ex3.decl, Ex3.proc]
    · intro i a; simp [Ex3.decl, Ex3.proc]
    · intro i w hw
      have : w ≠ 1 := fun h => hw ⟨0, h.symm⟩
      simp [Ex3.decl, this]
    · intro i w _; simp [Ex3.decl]
    · intro i w hw; exact absurd ⟨w, rfl⟩ hw
  · intro y hy
    funext i
    have := congrFun hy i
    simpa [Ex3.proc, mulVec, dotProduct, Subsingleton.elim i 0] using this
  · have := Ex3.lay.val_p r.state false
    rw [hst] at this ⊢
    exact this
  · have := Ex3.lay.val_z r.state 0
    rw [hst] at this ⊢
    exact this

end Pydsge
