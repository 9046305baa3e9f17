import Verif.Props.Resolve
import Verif.Model.ParaFunc
import Verif.Model.Tools

/-!
# C182: every entry of a model file acts only where it is named
-/

set_option autoImplicit false
set_option linter.unusedSectionVars false
set_option linter.unusedSimpArgs false

namespace Pydsge
open Matrix Parser Spec GenSys Engine Tools Pipeline Resolve

namespace Spec
variable {K : Type}

/-- Two sets of parameter values agree on the given names (and use the same functions). -/
def ParsAgree (I I' : Interp K) (ns : List String) : Prop := I.fn = I'.fn ∧ ∀ n ∈ ns, I.par n = I'.par n

/-- The names in the constraints of a file. -/
def conNames (f : File K) : List String := f.cons.flatMap (fun c => c.2.flatMap names)

/-- Two models differ at most in how the observables are computed. -/
def SameDynamics {z ε p o o' : Type} (m : Model z ε p o K) (m' : Model z ε p o' K) : Prop :=
  m.tables = m'.tables ∧ m.omg = m'.omg ∧ m.lam = m'.lam ∧ m.xbar = m'.xbar ∧ m.ff = m'.ff ∧ m.lks = m'.lks

end Spec

section
variable {K : Type}

/-- Parameters of an expression. -/
def Expr.parsOf : Expr K → List String
  | .num _ => []
  | .par n => [n]
  | .sym _ => []
  | .add a b => a.parsOf ++ b.parsOf
  | .sub a b => a.parsOf ++ b.parsOf
  | .mul a b => a.parsOf ++ b.parsOf
  | .div a b => a.parsOf ++ b.parsOf
  | .neg a => a.parsOf
  | .pow a _ => a.parsOf
  | .app _ a b => a.parsOf ++ b.parsOf

def Eqn.parsOf (e : Eqn K) : List String := e.lhs.parsOf ++ e.rhs.parsOf

theorem parsOf_subs1 (k v : TSym) (e : Expr K) : (e.subs1 k v).parsOf = e.parsOf := by
  induction e with
  | sym s => unfold Expr.subs1; split <;> rfl
  | _ => simp_all [Expr.subs1, Expr.parsOf]

theorem parsOf_subs (d : List (TSym × TSym)) (e : Expr K) : (e.subs d).parsOf = e.parsOf := by
  induction d generalizing e with
  | nil => rfl
  | cons kv d ih =>
    show (Expr.subs d (e.subs1 kv.1 kv.2)).parsOf = _
    rw [ih, parsOf_subs1]

theorem eqn_parsOf_subs (d : List (TSym × TSym)) (e : Eqn K) : (e.subs d).parsOf = e.parsOf := by
  unfold Eqn.subs Eqn.parsOf
  simp only [parsOf_subs]

section
variable [Field K]

theorem parsOf_diff (s : TSym) (e : Expr K) : ∀ n ∈ (e.diff s).parsOf, n ∈ e.parsOf := by
  induction e with
  | num c => intro n h; simp [Expr.diff, Expr.parsOf] at h
  | par m => intro n h; simp [Expr.diff, Expr.parsOf] at h
  | sym t => intro n h; unfold Expr.diff at h; split at h <;> simp [Expr.parsOf] at h
  | add a b ha hb => intro n h; simp only [Expr.diff, Expr.parsOf, List.mem_append] at h ⊢; rcases h with h | h
                     · exact .inl (ha n h)
                     · exact .inr (hb n h)
  | sub a b ha hb => intro n h; simp only [Expr.diff, Expr.parsOf, List.mem_append] at h ⊢; rcases h with h | h
                     · exact .inl (ha n h)
                     · exact .inr (hb n h)
  | mul a b ha hb => intro n h; have ha := ha n; have hb := hb n; simp only [Expr.diff, Expr.parsOf, List.mem_append] at h ⊢; tauto
  | div a b ha hb => intro n h; have ha := ha n; have hb := hb n; simp only [Expr.diff, Expr.parsOf, List.mem_append] at h ⊢; tauto
  | neg a ha => intro n h; exact ha n h
  | pow a k ha => intro n h; have ha := ha n; simp only [Expr.diff, Expr.parsOf, List.mem_append, List.nil_append] at h ⊢; tauto
  | app f a b ha hb => intro n h; have ha := ha n; have hb := hb n; simp only [Expr.diff, Expr.parsOf, List.mem_append] at h ⊢; tauto

theorem eval_parsOf {I I' : Interp K} (ρ : TSym → K) (e : Expr K) (h : ParsAgree I I' e.parsOf) : e.eval I ρ = e.eval I' ρ := by
  obtain ⟨hf, h⟩ := h
  induction e with
  | num c => rfl
  | par n => exact h n (List.mem_singleton.2 rfl)
  | sym s => rfl
  | neg a ha => simp only [Expr.eval]; rw [ha h]
  | pow a k ha => simp only [Expr.eval]; rw [ha h]
  | app f a b ha hb =>
    simp only [Expr.eval]
    rw [ha (fun n hn => h n (List.mem_append_left _ hn)), hb (fun n hn => h n (List.mem_append_right _ hn)), hf]
  | add a b ha hb | sub a b ha hb | mul a b ha hb | div a b ha hb =>
    simp only [Expr.eval]
    rw [ha (fun n hn => h n (List.mem_append_left _ hn)), hb (fun n hn => h n (List.mem_append_right _ hn))]

theorem coef_parsOf {I I' : Interp K} (e : Expr K) (s : TSym) (h : ParsAgree I I' e.parsOf) : coef I e s = coef I' e s := by
  unfold coef
  rw [eval_parsOf _ _ ⟨h.1, fun n hn => h.2 n (parsOf_diff s e n hn)⟩]

end

/-! ## Reading -/

theorem evalRaw_parsOf (ctx : String → Option Meaning) (r : Raw K) : ∀ e, evalRaw ctx r = .ok e → ∀ n ∈ e.parsOf, n ∈ names r := by
  induction r with
  | num c => intro e h n hn; simp only [evalRaw, Except.ok.injEq] at h; subst h; simp [Expr.parsOf] at hn
  | name m =>
    intro e h n hn
    simp only [evalRaw] at h
    split at h
    · cases h
    · simp only [Except.ok.injEq] at h; subst h; exact hn
    · simp only [Except.ok.injEq] at h; subst h; simp [Expr.parsOf] at hn
  | call m i =>
    intro e h n hn
    simp only [evalRaw] at h
    split at h
    · cases h
    · cases h
    · simp only [Except.ok.injEq] at h; subst h; simp [Expr.parsOf] at hn
  | neg a ha | pow a _ ha =>
    intro e h n hn
    simp only [evalRaw] at h
    cases h1 : evalRaw ctx a with
    | error err => rw [h1] at h; cases h
    | ok a' => rw [h1] at h; cases h; exact ha a' h1 n hn
  | add a b ha hb | sub a b ha hb | mul a b ha hb | div a b ha hb | app _ a b ha hb =>
    intro e h n hn
    simp only [evalRaw] at h
    cases h1 : evalRaw ctx a with
    | error err => rw [h1] at h; cases h
    | ok a' =>
      cases h2 : evalRaw ctx b with
      | error err => rw [h1, h2] at h; cases h
      | ok b' =>
        rw [h1, h2] at h
        cases h
        rcases List.mem_append.1 hn with hn | hn
        · exact List.mem_append_left _ (ha a' h1 n hn)
        · exact List.mem_append_right _ (hb b' h2 n hn)

theorem orSyntax_ok' {α : Type} {x : Except PyErr α} {a : α} (h : orSyntax x = .ok a) : x = .ok a := by
  cases x with
  | error e => cases h
  | ok b => exact h

theorem readEq_parsOf [Zero K] (ctx : String → Option Meaning) (r : RawEq K) (e : Eqn K) (h : readEq ctx r = .ok e) :
    ∀ n ∈ e.parsOf, n ∈ eqNames r := by
  have side : ∀ l rr : Raw K, orSyntax (do return (⟨← evalRaw ctx l, ← evalRaw ctx rr⟩ : Eqn K)) = .ok e →
      ∀ n ∈ e.parsOf, n ∈ names l ++ names rr := by
    intro l rr h n hn
    have h := orSyntax_ok' h
    cases h1 : evalRaw ctx l with
    | error err => rw [h1] at h; cases h
    | ok a' =>
      cases h2 : evalRaw ctx rr with
      | error err => rw [h1, h2] at h; cases h
      | ok b' =>
        rw [h1, h2] at h
        cases h
        rcases List.mem_append.1 hn with hn | hn
        · exact List.mem_append_left _ (evalRaw_parsOf ctx l a' h1 n hn)
        · exact List.mem_append_right _ (evalRaw_parsOf ctx rr b' h2 n hn)
  intro n hn
  unfold readEq at h
  unfold eqNames
  match hr : r.rest with
  | [] =>
    rw [hr] at h
    simpa [names] using side _ _ h n hn
  | [x] =>
    rw [hr] at h
    simpa using side _ _ h n hn
  | x :: y :: l => rw [hr] at h; cases h

/-! ## Leads and lags add no parameters -/

theorem shockStep_parsOf (ord : List (TSym × TSym) → List (TSym × TSym)) (lag : String → Int) (st : PState K) (s : String)
    (N : List String) (h : ∀ e ∈ st.eqs, ∀ n ∈ e.parsOf, n ∈ N) : ∀ e ∈ (shockStep ord lag st s).eqs, ∀ n ∈ e.parsOf, n ∈ N := by
  unfold shockStep
  split
  · intro e he
    obtain ⟨e', he', rfl⟩ := List.mem_map.1 he
    rw [eqn_parsOf_subs]
    rcases List.mem_append.1 he' with h1 | h1
    · exact h _ h1
    · rw [List.mem_singleton] at h1
      subst h1
      intro n hn
      simp [Eqn.parsOf, Expr.parsOf] at hn
  · exact h

theorem shockStage_parsOf (ord : List (TSym × TSym) → List (TSym × TSym)) (vars shocks : List String) (eqs : List (Eqn K))
    (N : List String) (h : ∀ e ∈ eqs, ∀ n ∈ e.parsOf, n ∈ N) : ∀ e ∈ (shockStage ord vars shocks eqs).eqs, ∀ n ∈ e.parsOf, n ∈ N := by
  unfold shockStage
  generalize (fun s => minDate (dates .shock s eqs)) = lag
  have : ∀ (l : List String) (st : PState K), (∀ e ∈ st.eqs, ∀ n ∈ e.parsOf, n ∈ N) →
      ∀ e ∈ (l.foldl (shockStep ord lag) st).eqs, ∀ n ∈ e.parsOf, n ∈ N := by
    intro l
    induction l with
    | nil => intro st h; exact h
    | cons s l ih => intro st h; exact ih _ (shockStep_parsOf ord lag st s N h)
  exact this shocks ⟨vars, eqs⟩ h

theorem endoStage_parsOf (ord : List (TSym × TSym) → List (TSym × TSym)) (st : PState K)
    (N : List String) (h : ∀ e ∈ st.eqs, ∀ n ∈ e.parsOf, n ∈ N) : ∀ e ∈ (endoStage ord st).eqs, ∀ n ∈ e.parsOf, n ∈ N := by
  unfold endoStage
  intro e he
  obtain ⟨e', he', rfl⟩ := List.mem_map.1 he
  rw [eqn_parsOf_subs]
  rcases List.mem_append.1 he' with h1 | h1
  · exact h _ h1
  · obtain ⟨v, -, h2⟩ := List.mem_flatMap.1 h1
    intro n hn
    rcases List.mem_append.1 h2 with h3 | h3
    · obtain ⟨j, -, rfl⟩ := List.mem_map.1 h3
      simp [Eqn.parsOf, Expr.parsOf] at hn
    · obtain ⟨j, -, rfl⟩ := List.mem_map.1 h3
      simp [Eqn.parsOf, Expr.parsOf] at hn

theorem parseEqs_parsOf {ord : List (TSym × TSym) → List (TSym × TSym)} {vars shocks : List String} {eqs : List (Eqn K)} {st : PState K}
    (hp : parseEqs ord vars shocks eqs = .ok st) (N : List String) (h : ∀ e ∈ eqs, ∀ n ∈ e.parsOf, n ∈ N) :
    ∀ e ∈ st.eqs, ∀ n ∈ e.parsOf, n ∈ N := by
  unfold parseEqs at hp
  split at hp
  · cases hp
  · split at hp
    · cases hp
    · split at hp
      · cases hp
      · simp only [Except.ok.injEq] at hp
        subst hp
        exact endoStage_parsOf ord _ N (shockStage_parsOf ord vars shocks eqs N h)

/-! ## Matrices -/

section
variable [Field K]

theorem Spec.ParsAgree.mono {I I' : Interp K} {l l' : List String} (h : ParsAgree I I' l) (hs : ∀ n ∈ l', n ∈ l) : ParsAgree I I' l' :=
  ⟨h.1, fun n hn => h.2 n (hs n hn)⟩

theorem getMatrices_congr {I I' : Interp K} (con : Bool) (vars shocks : List String) (eqs : List (Eqn K))
    (h : ∀ e ∈ eqs, ParsAgree I I' e.parsOf) : getMatrices I con vars shocks eqs = getMatrices I' con vars shocks eqs := by
  unfold getMatrices
  have hc : ∀ (i : Nat) (e : Eqn K) (s : TSym), eqs[i]? = some e → coef I e.setEqZero s = coef I' e.setEqZero s := by
    intro i e s he
    exact coef_parsOf _ _ (h e (List.mem_of_getElem? he))
  simp only
  split
  · rfl
  · congr 1
    congr 1
    all_goals
      funext i v
      cases he : eqs[i]? with
      | none => rfl
      | some e => simp only [hc i e _ he]

/-- The reasons for which the matrices are refused do not involve the parameters. -/
theorem getMatrices_error {I I' : Interp K} (con : Bool) (vars shocks : List String) (eqs : List (Eqn K)) (e : PyErr)
    (h : getMatrices I con vars shocks eqs = .error e) : getMatrices I' con vars shocks eqs = .error e := by
  unfold getMatrices at *
  simp only at *
  split at h
  · exact h
  · cases h

theorem getConstraint_congr {I I' : Interp K} (vars shocks : List String) (ce : Eqn K) (h : ParsAgree I I' ce.parsOf) :
    getConstraint I vars shocks ce = getConstraint I' vars shocks ce := by
  unfold getConstraint
  have hc : ∀ s, coef I ce.setEqZero s = coef I' ce.setEqZero s := fun s => coef_parsOf _ _ h
  simp only [hc]

theorem obsRows_congr {I I' : Interp K} (vars fvars : List String) (obs : List (Expr K)) (h : ∀ e ∈ obs, ParsAgree I I' e.parsOf) :
    obsRows I vars fvars obs = obsRows I' vars fvars obs := by
  induction obs with
  | nil => rfl
  | cons e l ih =>
    have h1 : getObs I vars fvars e = getObs I' vars fvars e := by
      have he := h e List.mem_cons_self
      have hc : ∀ s, coef I e s = coef I' e s := fun s => coef_parsOf _ _ he
      unfold getObs
      simp only [hc, eval_parsOf _ _ he]
    unfold obsRows
    rw [h1, ih (fun e' he' => h e' (List.mem_cons_of_mem _ he'))]

variable {ord : List (TSym × TSym) → List (TSym × TSym)}

theorem compile_parts {I : Interp K} {src : Source K} {C : Compiled K} (h : compile ord I src = .ok C) :
    parseEqs ord src.vars src.shocks src.eqs = .ok C.st ∧ getConstraint I (unique C.st.vars) src.shocks src.con = .ok C.con ∧
      getMatrices I true C.st.vars src.shocks C.st.eqs = .ok C.mats ∧ obsRows I C.mats.vars (fvarsOf C.st.eqs) src.obs = .ok C.obs := by
  unfold compile at h
  split at h
  · cases h
  · split at h
    · cases h
    · next st h1 =>
      split at h
      · cases h
      · next R h2 =>
        split at h
        · cases h
        · next M h3 =>
          split at h
          · cases h
          · next os h4 =>
            simp only [Except.ok.injEq] at h
            subst h
            exact ⟨h1, h2, h3, h4⟩

theorem read_parts {I : Interp K} {f : File K} {src : Source K} {C : Compiled K} (h : readFile ord I f = .ok (src, C)) :
    ∃ c rhs, f.cons = [c] ∧ readCon (context f.vars f.pars f.shocks f.other) c.1 c.2 = .ok rhs ∧
      readEqs (context f.vars f.pars f.shocks f.other) f.eqs = .ok src.eqs ∧
      readObs (obsContext (context f.vars f.pars f.shocks f.other)) f.obs = .ok src.obs ∧
      src = ⟨f.vars, f.shocks, src.eqs, c.1, rhs, src.obs⟩ ∧ compile ord I src = .ok C := by
  unfold readFile at h
  split at h
  · cases h
  · simp only at h
    split at h
    · cases h
    · next c hc =>
      split at h
      · cases h
      · next rhs hr =>
        split at h
        · cases h
        · split at h
          · cases h
          · next eqs he =>
            split at h
            · cases h
            · split at h
              · cases h
              · next obs ho =>
                split at h
                · cases h
                · next C' hC =>
                  simp only [Except.ok.injEq, Prod.mk.injEq] at h
                  obtain ⟨rfl, rfl⟩ := h
                  exact ⟨c, rhs, hc, hr, he, ho, rfl, hC⟩
    · cases h

theorem readEqs_parsOf (ctx : String → Option Meaning) (es : List (RawEq K)) (es' : List (Eqn K)) (h : readEqs ctx es = .ok es') :
    ∀ e ∈ es', ∀ n ∈ e.parsOf, n ∈ es.flatMap eqNames := by
  have h2 := readEqs_ok ctx es es' h
  clear h
  induction h2 with
  | nil => intro e he; simp at he
  | cons hd _ ih =>
    intro e he n hn
    rcases List.mem_cons.1 he with rfl | he
    · exact List.mem_append_left _ (readEq_parsOf ctx _ _ hd n hn)
    · exact List.mem_append_right _ (ih e he n hn)

theorem readObs_parsOf (ctx : String → Option Meaning) (es : List (Raw K)) (es' : List (Expr K)) (h : readObs ctx es = .ok es') :
    ∀ e ∈ es', ∀ n ∈ e.parsOf, n ∈ es.flatMap names := by
  have h2 := readObs_ok ctx es es' h
  clear h
  induction h2 with
  | nil => intro e he; simp at he
  | cons hd _ ih =>
    intro e he n hn
    rcases List.mem_cons.1 he with rfl | he
    · exact List.mem_append_left _ (evalRaw_parsOf ctx _ _ hd n hn)
    · exact List.mem_append_right _ (ih e he n hn)

theorem readCon_parsOf (ctx : String → Option Meaning) (c : String) (rhs : List (Raw K)) (e : Expr K) (h : readCon ctx c rhs = .ok e) :
    ∀ n ∈ e.parsOf, n ∈ rhs.flatMap names := by
  unfold readCon at h
  split at h
  · next r =>
    have h := orSyntax_ok' h
    intro n hn
    cases h1 : evalRaw (K := K) ctx (.name c) with
    | error err => rw [h1] at h; cases h
    | ok a =>
      rw [h1] at h
      simpa using evalRaw_parsOf ctx r e h n hn
  · cases h

/-! ## The claims -/

/-- C182: the same file at two sets of parameter values. What is read, and the treatment of leads and lags, is the same. If the values agree on
the names in the model equations, the matrices of the equations are the same; if they agree on the names in the constraint, its row is the
same; if they agree on the names in the measurement equations, these are the same. -/
theorem C182_named {I I' : Interp K} {f : File K} {src src' : Source K} {C C' : Compiled K} (h : readFile ord I f = .ok (src, C))
    (h' : readFile ord I' f = .ok (src', C')) : src = src' ∧ C.st = C'.st ∧ C.mats.vars = C'.mats.vars ∧
      (ParsAgree I I' (f.eqs.flatMap eqNames) → C.mats = C'.mats) ∧ (ParsAgree I I' (conNames f) → C.con = C'.con) ∧
      (ParsAgree I I' (f.obs.flatMap names) → C.obs = C'.obs) := by
  obtain ⟨c, rhs, hc, hr, he, ho, hs, hC⟩ := read_parts h
  obtain ⟨c', rhs', hc', hr', he', ho', hs', hC'⟩ := read_parts h'
  rw [hc] at hc'
  obtain rfl : c = c' := by simpa using hc'
  obtain rfl : rhs = rhs' := Except.ok.inj (hr.symm.trans hr')
  have e1 : src.eqs = src'.eqs := Except.ok.inj (he.symm.trans he')
  have e2 : src.obs = src'.obs := Except.ok.inj (ho.symm.trans ho')
  obtain rfl : src = src' := by rw [hs, hs', e1, e2]
  obtain ⟨p1, p2, p3, p4⟩ := compile_parts hC
  obtain ⟨q1, q2, q3, q4⟩ := compile_parts hC'
  have est : C.st = C'.st := Except.ok.inj (p1.symm.trans q1)
  rw [← est] at q2 q3 q4
  have ev : ∀ (J : Interp K) M, getMatrices J true C.st.vars src.shocks C.st.eqs = .ok M → M.vars = unique C.st.vars := by
    intro J M h
    unfold getMatrices at h
    simp only at h
    split at h
    · cases h
    · simp only [Except.ok.injEq] at h; subst h; rfl
  have emv : C.mats.vars = C'.mats.vars := (ev I _ p3).trans (ev I' _ q3).symm
  refine ⟨rfl, est, emv, ?_, ?_, ?_⟩
  · intro ha
    have := getMatrices_congr (I := I) (I' := I') true C.st.vars src.shocks C.st.eqs
      (fun e hm => ha.mono (parseEqs_parsOf p1 _ (readEqs_parsOf _ _ _ he) e hm))
    exact Except.ok.inj (p3.symm.trans (this.trans q3))
  · intro ha
    have := getConstraint_congr (I := I) (I' := I') (unique C.st.vars) src.shocks src.con (ha.mono (by
      intro n hn
      have h1 : n ∈ rhs.parsOf := by rw [hs] at hn; simpa [Source.con, Eqn.parsOf, Expr.parsOf] using hn
      unfold conNames
      rw [hc]
      simpa using readCon_parsOf _ _ _ _ hr n h1))
    exact Except.ok.inj (p2.symm.trans (this.trans q2))
  · intro ha
    have := obsRows_congr (I := I) (I' := I') C.mats.vars (fvarsOf C.st.eqs) src.obs
      (fun e hm => ha.mono (readObs_parsOf _ _ _ ho e hm))
    rw [← emv] at q4
    exact Except.ok.inj (p4.symm.trans (this.trans q4))

/-- C182: parameters that the equations, the constraint and the measurement equations do not name change nothing: the outcome is the same,
whether it is a model or an error. -/
theorem C182_unused (I I' : Interp K) (f : File K)
    (h : ParsAgree I I' (f.eqs.flatMap eqNames ++ conNames f ++ f.obs.flatMap names)) : readFile ord I f = readFile ord I' f := by
  unfold readFile
  split
  · rfl
  · simp only
    split
    · rfl
    · next c hc =>
      cases hr : readCon (context f.vars f.pars f.shocks f.other) c.1 c.2 with
      | error e => rfl
      | ok rhs =>
        simp only
        split
        · rfl
        · cases he : readEqs (context f.vars f.pars f.shocks f.other) f.eqs with
          | error e => rfl
          | ok eqs =>
            simp only
            cases hp : parseEqs ord f.vars f.shocks eqs with
            | error e => rfl
            | ok st =>
              simp only
              cases ho : readObs (obsContext (context f.vars f.pars f.shocks f.other)) f.obs with
              | error e => rfl
              | ok obs =>
                simp only
                have : compile ord I (⟨f.vars, f.shocks, eqs, c.1, rhs, obs⟩ : Source K) = compile ord I' ⟨f.vars, f.shocks, eqs, c.1, rhs, obs⟩ := by
                  unfold compile
                  simp only
                  split
                  · rfl
                  · rw [hp]
                    simp only
                    rw [getConstraint_congr (I := I) (I' := I') (unique st.vars) f.shocks (Source.con ⟨f.vars, f.shocks, eqs, c.1, rhs, obs⟩)
                      (h.mono (by
                        intro n hn
                        have h1 : n ∈ rhs.parsOf := by simpa [Source.con, Eqn.parsOf, Expr.parsOf] using hn
                        refine List.mem_append_left _ (List.mem_append_right _ ?_)
                        unfold conNames
                        rw [hc]
                        simpa using readCon_parsOf _ _ _ _ hr n h1)),
                      getMatrices_congr (I := I) (I' := I') true st.vars f.shocks st.eqs (fun e hm => h.mono (fun n hn =>
                        List.mem_append_left _ (List.mem_append_left _ (parseEqs_parsOf hp _ (readEqs_parsOf _ _ _ he) e hm n hn))))]
                    cases getConstraint I' (unique st.vars) f.shocks (Source.con ⟨f.vars, f.shocks, eqs, c.1, rhs, obs⟩) with
                    | error e => rfl
                    | ok R =>
                      simp only
                      cases getMatrices I' true st.vars f.shocks st.eqs with
                      | error e => rfl
                      | ok M =>
                        simp only
                        rw [obsRows_congr (I := I) (I' := I') M.vars (fvarsOf st.eqs) obs (fun e hm => h.mono (fun n hn =>
                          List.mem_append_right _ (readObs_parsOf _ _ _ ho e hm n hn)))]
                rw [this]
    · rfl

end

/-! ## Functions of parameters -/

open ParaFunc in
theorem pe_eval_congr {V : Type} (ap : V → V → Except PyErr V) (c c' : Ctx V) (e : PE V) (h : ∀ n ∈ e.names, c n = c' n) :
    e.eval ap c = e.eval ap c' := by
  induction e with
  | lit v => rfl
  | name n => simp only [PE.eval]; rw [h n (List.mem_singleton.2 rfl)]
  | app f a hf ha =>
    simp only [PE.eval]
    rw [hf (fun n hn => h n (List.mem_append_left _ hn)), ha (fun n hn => h n (List.mem_append_right _ hn))]

open ParaFunc in
theorem pass_congr {V : Type} (ap : V → V → Except PyErr V) (raise : Bool) (N : List String) (l : List (PDef V × Bool))
    (hN : ∀ d ∈ l, ∀ n ∈ d.1.body.names, n ∈ N) : ∀ (c c' ss : Ctx V) (suc : Bool), (∀ n ∈ N, c n = c' n) →
    (∃ e, pass ap raise l c ss suc = .error e ∧ pass ap raise l c' ss suc = .error e) ∨
    ∃ st st' s, pass ap raise l c ss suc = .ok (st, s) ∧ pass ap raise l c' ss suc = .ok (st', s) ∧ st.ss = st'.ss ∧ st.defs = st'.defs ∧
      (∀ n ∈ N, st.ctx n = st'.ctx n) ∧ st.defs.map Prod.fst = l.map Prod.fst := by
  induction l with
  | nil => intro c c' ss suc h; exact .inr ⟨_, _, _, rfl, rfl, rfl, rfl, h, rfl⟩
  | cons d l ih =>
    obtain ⟨d, b⟩ := d
    have ih := ih (fun d hd => hN d (List.mem_cons_of_mem _ hd))
    intro c c' ss suc h
    cases b with
    | true =>
      rcases ih c c' ss suc h with ⟨e, h1, h2⟩ | ⟨st, st', s, h1, h2, h3, h4, h5, h6⟩
      · exact .inl ⟨e, by simp only [pass, h1], by simp only [pass, h2]⟩
      · exact .inr ⟨⟨st.ctx, st.ss, (d, true) :: st.defs⟩, ⟨st'.ctx, st'.ss, (d, true) :: st'.defs⟩, s, by simp only [pass, h1], by simp only [pass, h2], h3,
          by simp only [h4], h5, by simp only [List.map_cons, h6]⟩
    | false =>
      have he := pe_eval_congr ap c c' d.body (fun n hn => h n (hN (d, false) List.mem_cons_self n hn))
      cases hv : d.body.eval ap c with
      | ok v =>
        have hv' := he ▸ hv
        rcases ih (c.set d.name v) (c'.set d.name v) (ss.set d.name v) true (fun n hn => by
            unfold Ctx.set; split
            · rfl
            · exact h n hn) with
          ⟨e, h1, h2⟩ | ⟨st, st', s, h1, h2, h3, h4, h5, h6⟩
        · exact .inl ⟨e, by simp only [pass, hv, h1], by simp only [pass, hv', h2]⟩
        · exact .inr ⟨⟨st.ctx, st.ss, (d, true) :: st.defs⟩, ⟨st'.ctx, st'.ss, (d, true) :: st'.defs⟩, s, by simp only [pass, hv, h1],
            by simp only [pass, hv', h2], h3, by simp only [h4], h5, by simp only [List.map_cons, h6]⟩
      | error er =>
        have hv' := he ▸ hv
        by_cases hn : er = .nameError
        · subst hn
          cases raise with
          | true => exact .inl ⟨.nameError, by simp [pass, hv], by simp [pass, hv']⟩
          | false =>
            rcases ih c c' ss suc h with ⟨e, h1, h2⟩ | ⟨st, st', s, h1, h2, h3, h4, h5, h6⟩
            · exact .inl ⟨e, by simp [pass, hv, h1], by simp [pass, hv', h2]⟩
            · exact .inr ⟨⟨st.ctx, st.ss, (d, false) :: st.defs⟩, ⟨st'.ctx, st'.ss, (d, false) :: st'.defs⟩, s, by simp [pass, hv, h1],
                by simp [pass, hv', h2], h3, by simp only [h4], h5, by simp only [List.map_cons, h6]⟩
        · refine .inl ⟨er, ?_, ?_⟩
          · simp only [pass, hv]
          · simp only [pass, hv']

open ParaFunc in
theorem loop_congr {V : Type} (ap : V → V → Except PyErr V) (N : List String) (fuel : Nat) : ∀ (suc : Bool) (st st' : RState V),
    st.ss = st'.ss → st.defs = st'.defs → (∀ n ∈ N, st.ctx n = st'.ctx n) → (∀ d ∈ st.defs, ∀ n ∈ d.1.body.names, n ∈ N) →
    (loop ap fuel suc st).map (fun r => r.map RState.ss) = (loop ap fuel suc st').map (fun r => r.map RState.ss) := by
  induction fuel with
  | zero => intros; rfl
  | succ f ih =>
    rintro suc ⟨c, ss, l⟩ ⟨c', ss', l'⟩ h1 h2 h3 h4
    simp only at h1 h2 h3 h4
    subst h1 h2
    unfold loop
    simp only
    split
    · rfl
    · rcases pass_congr ap (!suc) N l h4 c c' ss false h3 with ⟨e, p1, p2⟩ | ⟨st, st', s, p1, p2, p3, p4, p5, p6⟩
      · rw [p1, p2]
      · rw [p1, p2]
        refine ih s st st' p3 p4 p5 (fun d hd => ?_)
        have : d.1 ∈ l.map Prod.fst := p6 ▸ List.mem_map_of_mem hd
        obtain ⟨d', hd', e⟩ := List.mem_map.1 this
        rw [← e]
        exact h4 d' hd'

open ParaFunc in
/-- C182: the functions of parameters depend only on the names that they mention: contexts that agree there give the same values, the same
errors, and the same running on. -/
theorem C182_parafunc {V : Type} (ap : V → V → Except PyErr V) (fuel : Nat) (base base' : Ctx V) (defs : List (PDef V))
    (h : ∀ n ∈ defs.flatMap (fun d => d.body.names), base n = base' n) : resolve ap fuel base defs = resolve ap fuel base' defs := by
  unfold resolve
  refine loop_congr ap (defs.flatMap (fun d => d.body.names)) fuel true _ _ rfl rfl h ?_
  intro d hd n hn
  obtain ⟨d', hd', rfl⟩ := List.mem_map.1 hd
  exact List.mem_flatMap.2 ⟨d', hd', hn⟩

/-! ## Measurement equations do not act on the states -/

section
variable {E ν ε o o' : Type} [Fintype E] [Fintype ν] [Fintype ε] [DecidableEq E] [DecidableEq ν] [DecidableEq ε]
  [Fintype o] [Fintype o'] [Field K] [LinearOrder K]

/-- The same equations and constraint with other measurement equations. -/
def withObs (m : Input E ν ε o K) (Z0 : Matrix o' ν K) (Z1 : o' → K) : Input E ν ε o' K :=
  { AA0 := m.AA0, BB0 := m.BB0, CC0 := m.CC0, DD0 := m.DD0, fb0 := m.fb0, fc0 := m.fc0, fd0 := m.fd0, ZZ0 := Z0, ZZ1 := Z1,
    cvar := m.cvar, xbar := m.xbar }

variable {H z p : Type} [DecidableEq H] [Fintype H] [Fintype z] [Fintype p] [DecidableEq z] [DecidableEq p]
variable {tol : K} {m : Input E ν ε o K} [DecidablePred (inall tol m)]

instance (Z0 : Matrix o' ν K) (Z1 : o' → K) : DecidablePred (inall tol (withObs m Z0 Z1)) :=
  fun v => inferInstanceAs (Decidable (inall tol m v))

/-- The masks do not look at the measurement equations. -/
def layoutObs (lay : Layout tol m H z p) (Z0 : Matrix o' ν K) (Z1 : o' → K) : Layout tol (withObs m Z0 Z1) H z p where
  hyb := lay.hyb
  zi := lay.zi
  pi := lay.pi
  hyb_inj := lay.hyb_inj
  hyb_range := lay.hyb_range
  zi_inj := lay.zi_inj
  zi_range := lay.zi_range
  pi_inj := lay.pi_inj
  pi_range := lay.pi_range
  shocks := lay.shocks
  square := lay.square

/-- C182: with other measurement equations (other coefficients, other constants, more or fewer of them) the solution succeeds or fails in the
same way, and the model differs only in how observables are computed. -/
theorem C182_observables (lay : Layout tol m H z p) (Z0 : Matrix o' ν K) (Z1 : o' → K) (orc : Oracle (Rows E H ε) (z ⊕ ε) p K) (lMax kMax : Nat)
    (sched : Nat → List Nat) :
    (∀ e, genSys lay orc lMax kMax sched = .error e ↔ genSys (layoutObs lay Z0 Z1) orc lMax kMax sched = .error e) ∧
    ∀ M, genSys lay orc lMax kMax sched = .ok M →
      ∃ M', genSys (layoutObs lay Z0 Z1) orc lMax kMax sched = .ok M' ∧ SameDynamics M M' ∧
        M'.hx.2.2 = Z1 ∧ (∀ i j v, lay.zi j = .inl v → M'.hx.2.1 i j = Z0 i v) ∧ ∀ i j v, lay.pi j = .inl v → M'.hx.1 i j = Z0 i v := by
  have hs : sysOf (layoutObs lay Z0 Z1) orc = sysOf lay orc := rfl
  have hf : GenSys.ff (layoutObs lay Z0 Z1) = GenSys.ff lay := rfl
  have hz : (layoutObs lay Z0 Z1).zi = lay.zi := rfl
  have hp : (layoutObs lay Z0 Z1).pi = lay.pi := rfl
  unfold genSys
  rw [hs, hf]
  simp only
  cases orc.klein (sysOf lay orc).S (sysOf lay orc).T with
  | error e0 => exact ⟨fun e => by simp only [Except.error.injEq], fun M h => by cases h⟩
  | ok r =>
    simp only
    cases preprocess (sysOf lay orc) (GenSys.ff lay) r.1 r.2 lMax kMax sched with
    | error e0 => exact ⟨fun e => by simp only [Except.error.injEq], fun M h => by cases h⟩
    | ok t =>
      refine ⟨fun e => ⟨fun h => (by cases h), fun h => (by cases h)⟩, fun M h => ?_⟩
      simp only [Except.ok.injEq] at h
      subst h
      refine ⟨_, rfl, ⟨rfl, rfl, rfl, rfl, rfl, rfl⟩, rfl, fun i j v hv => ?_, fun i j v hv => ?_⟩
      · simp only [GenSys.hx, hz, hv]
        rfl
      · simp only [GenSys.hx, hp, hv]
        rfl

theorem tFunc_sameDyn {M : Model z ε p o K} {M' : Model z ε p o' K} (h : SameDynamics M M') (st : p ⊕ z → K) (eps : ε → K) (sk : SetK)
    (linear : Bool) : tFunc M st eps sk linear = tFunc M' st eps sk linear := by
  obtain ⟨h1, -, -, h4, -, -⟩ := h
  unfold tFunc tFuncRaw
  rw [h1, h4]

/-- C182: transition, impulse responses and simulations are the same for both models. -/
theorem C182_states {M : Model z ε p o K} {M' : Model z ε p o' K} (h : SameDynamics M M') :
    (∀ st eps sk linear, tFunc M st eps sk linear = tFunc M' st eps sk linear) ∧
    (∀ a st T, irfs M a st T = irfs M' a st T) ∧
    ∀ linear st es, simLoop M linear st es = simLoop M' linear st es := by
  refine ⟨tFunc_sameDyn h, ?_, ?_⟩
  · intro a st T
    have hstep : ∀ s t, irfStep M a s t = irfStep M' a s t := by
      intro s t
      unfold irfStep
      simp only [tFunc_sameDyn h, h.2.2.2.2.2]
    have : ∀ n t s, irfRun M a t s n = irfRun M' a t s n := by
      intro n
      induction n with
      | zero => intro t s; simp only [irfRun]
      | succ n ih => intro t s; simp only [irfRun, hstep, ih]
    exact this T 0 _
  · intro linear st es
    induction es generalizing st with
    | nil => rfl
    | cons e es ih => simp only [simLoop, tFunc_sameDyn h, ih]

end

section
variable [Field K] {ord : List (TSym × TSym) → List (TSym × TSym)} {E ν ε o o' : Type}

/-- C182: parameters that only the measurement equations name change nothing else of what is handed to the solution: with rows and columns
numbered in the same way, the input is the same up to the measurement equations. (The value of `x_bar` is looked up by its name,
gensys.py:126-139; here it is the same in both.) -/
theorem C182_input {I I' : Interp K} {f : File K} {src src' : Source K} {C C' : Compiled K} (h : readFile ord I f = .ok (src, C))
    (h' : readFile ord I' f = .ok (src', C')) (he : ParsAgree I I' (f.eqs.flatMap eqNames)) (hc : ParsAgree I I' (conNames f))
    (L : Labels E ν ε o src.shocks C) (L' : Labels E ν ε o' src'.shocks C') (hrow : ∀ i, (L.row i : Nat) = L'.row i)
    (hvn : ∀ v, (L.vn v : String) = L'.vn v) (hsn : ∀ s, (L.sn s : String) = L'.sn s) (cv : ν) (xbar : K) :
    inputOf L' cv xbar = withObs (inputOf L cv xbar) (inputOf L' cv xbar).ZZ0 (inputOf L' cv xbar).ZZ1 := by
  obtain ⟨-, -, -, h1, h2, -⟩ := C182_named h h'
  have h1 := h1 he
  have h2 := h2 hc
  unfold inputOf withObs
  simp only [← h1, ← h2, hrow, hvn, hsn]

/-- C182: the level of the constraint: if `x_bar` is a parameter, a function of parameters of this name has no effect. -/
theorem C182_xbar [LinearOrder K] (a b b' : Option K) (h : a = none → b = b') : xbarOf a b = xbarOf a b' := by
  cases a with
  | some x => rfl
  | none => rw [h rfl]

end

/-! ## Examples -/

namespace UnusedEx
open ResolveEx

/-- Like `ResolveEx.file`, with a parameter `b` in the measurement equation and a parameter `u` that is not used. -/
def file2 : File Rat := { file with pars := ["a", "b", "u"], obs := [.sub (.name "b") (.mul (.num 2) (.name "y"))] }

def I1 : Interp Rat := ⟨fun _ => 1, fun _ _ _ => 0⟩
/-- Another value of `b`. -/
def I2 : Interp Rat := ⟨fun n => if n = "b" then 5 else 1, fun _ _ _ => 0⟩
/-- Another value of `u`. -/
def I3 : Interp Rat := ⟨fun n => if n = "u" then 5 else 1, fun _ _ _ => 0⟩

theorem agree12 : ParsAgree I1 I2 (file2.eqs.flatMap eqNames) ∧ ParsAgree I1 I2 (conNames file2) :=
  ⟨⟨rfl, by decide +kernel⟩, ⟨rfl, by decide +kernel⟩⟩

theorem agree13 : ParsAgree I1 I3 (file2.eqs.flatMap eqNames ++ conNames file2 ++ file2.obs.flatMap names) := ⟨rfl, by decide +kernel⟩

end UnusedEx

open UnusedEx in
/-- The claims of C182 for a file with a parameter that only the measurement equation names, and one that nothing names. The first has an
effect on the constant of the measurement equation, and only there. -/
theorem C182_hypotheses_met : (∃ src C C', readFile id I1 file2 = .ok (src, C) ∧ readFile id I2 file2 = .ok (src, C') ∧ C.mats = C'.mats ∧
      C.con = C'.con ∧ C.obs ≠ C'.obs) ∧
    I1.par "u" ≠ I3.par "u" ∧ readFile id I1 file2 = readFile id I3 file2 ∧ (readFile id I1 file2).toOption.isSome = true := by
  have e1 : (readFile id I1 file2).toOption.map (fun x => x.2.obs.map Prod.snd) = some [1] := by decide +kernel
  have e2 : (readFile id I2 file2).toOption.map (fun x => x.2.obs.map Prod.snd) = some [5] := by decide +kernel
  refine ⟨?_, by decide +kernel, C182_unused I1 I3 file2 agree13, by decide +kernel⟩
  cases h1 : readFile id I1 file2 with
  | error e => rw [h1] at e1; cases e1
  | ok a =>
    cases h2 : readFile id I2 file2 with
    | error e => rw [h2] at e2; cases e2
    | ok b =>
      obtain ⟨src, C⟩ := a
      obtain ⟨src', C'⟩ := b
      obtain ⟨rfl, -, -, hm, hc, -⟩ := C182_named h1 h2
      refine ⟨src, C, C', rfl, rfl, hm agree12.1, hc agree12.2, fun h => ?_⟩
      rw [h1] at e1
      rw [h2] at e2
      simp only [Except.toOption, Option.map_some, Option.some.injEq] at e1 e2
      rw [h, e2] at e1
      simp at e1

open ParaFunc in
/-- Functions of parameters: `f = g`, `g = a` do not see another entry of the context. -/
example (ap : Nat → Nat → Except PyErr Nat) (fuel : Nat) : resolve ap fuel (fun n => if n = "a" then some 3 else none) [⟨"f", .name "g"⟩, ⟨"g", .name "a"⟩] =
    resolve ap fuel (fun n => if n = "a" then some 3 else if n = "b" then some 4 else none) [⟨"f", .name "g"⟩, ⟨"g", .name "a"⟩] :=
  C182_parafunc ap fuel _ _ _ (by decide +kernel)

/-- A solved model and the same model with two observables instead of one. -/
example : ∃ (M : Model (Fin 1) (Fin 1) (Fin 1) (Fin 1) Rat) (M' : Model (Fin 1) (Fin 1) (Fin 1) (Fin 2) Rat),
    genSys (Ex1.layB (-1)) Ex1.orc 2 30 (serial 30) = .ok M ∧ M'.hx.2.2 = (fun _ => 7) ∧ ∀ a st T, irfs M a st T = irfs M' a st T := by
  obtain ⟨mod, h⟩ := Ex1.succeeds (b := -1) 2 30 (Ex1.serial_perm 2 30)
  obtain ⟨M', -, h2, h3, -⟩ := (C182_observables (o' := Fin 2) (Ex1.layB (-1)) (fun _ _ => 1) (fun _ => 7) Ex1.orc 2 30 (serial 30)).2 mod h.gen
  exact ⟨mod, M', h.gen, h3, (C182_states h2).2.1⟩

end
end Pydsge
