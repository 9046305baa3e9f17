import Verif.Props.ModelFile
import Verif.Examples.Ex1Run
import Mathlib.Data.List.NodupEquivFin

/-!
# A model file that meets the hypotheses of C82

`y = 3/4*y(-1) - r(+1) + e`, constraint `r = y`, observable `1 - 2*y`: the file behind `Ex1`.
-/

set_option autoImplicit false
set_option linter.unusedSimpArgs false

namespace Pydsge.FileEx
open Matrix Parser Spec GenSys Engine Tools Pipeline

def eq1 : Eqn Rat :=
  ⟨.sym (vsym "y"), .add (.sub (.mul (.div (.num 3) (.num 4)) (.sym (vsym "y" (-1)))) (.sym (vsym "r" 1))) (.sym (ssym "e"))⟩

def oe : Expr Rat := .sub (.num 1) (.mul (.num 2) (.sym (vsym "y")))

def src : Source Rat := ⟨["y", "r"], ["e"], [eq1], "r", .sym (vsym "y"), [oe]⟩

def I : Interp Rat := ⟨fun _ => 0, fun _ _ _ => 0⟩

theorem accepted : (compile id I src).toOption.isSome = true := by decide +kernel

theorem parsed : parseEqs id src.vars src.shocks src.eqs = .ok ⟨["y", "r"], [eq1]⟩ := by decide +kernel

theorem lin1 : LinearEq I eq1 := by
  refine ⟨by simp [eq1, Eqn.setEqZero, Expr.PolyForm, Expr.syms], fun s => if s = vsym "y" then 1 else if s = vsym "y" (-1) then -3/4
    else if s = vsym "r" 1 then 1 else -1, fun ρ => ?_⟩
  have hs : eq1.setEqZero.syms.toFinset = {vsym "y", vsym "y" (-1), vsym "r" 1, ssym "e"} := by decide +kernel
  rw [hs, Finset.sum_insert (by decide +kernel), Finset.sum_insert (by decide +kernel), Finset.sum_insert (by decide +kernel),
    Finset.sum_singleton]
  simp [eq1, Eqn.setEqZero, Expr.eval, vsym, ssym, TSym.mk']
  ring

theorem plain : Plain I src where
  eqs := by
    intro e he
    simp only [src, List.mem_singleton] at he
    subst he
    exact lin1
  leads := by unfold LeadsAtMost; decide +kernel
  con := linearEq_syms I _ _ (by decide +kernel)
  cur := by decide +kernel
  self := by decide +kernel

/-- The parser's arrays for this file are those of `Ex1`. -/
theorem input (b : Rat) : ∃ (C : Compiled Rat) (L : Labels (Fin 1) (Fin 2) (Fin 1) (Fin 1) src.shocks C),
    compile id I src = .ok C ∧ (L.vn 1 : String) = src.cvar ∧ inputOf L 1 b = Ex1.inpB b := by
  cases hC : compile id I src with
  | error e => have := accepted; rw [hC] at this; cases this
  | ok C =>
    obtain ⟨_, h1, h2, h3, h4⟩ := compile_ok hC
    have hst : C.st = ⟨["y", "r"], [eq1]⟩ := by
      rw [parsed] at h1
      exact (Except.ok.inj h1).symm
    have hv : C.mats.vars = ["y", "r"] := by
      rw [getMatrices_vars h3, hst]; decide +kernel
    have hrow := getMatrices_ok I true _ _ _ _ h3 0 eq1 (by rw [hst]; rfl)
    have hlen : C.obs.length = 1 := obsRows_length I _ _ _ _ h4
    obtain ⟨_, hg⟩ := obsRows_get I _ _ _ _ h4 0 (by omega)
    refine ⟨C, ⟨finCongr (by rw [hv]; rfl), (List.Nodup.getEquiv ["y", "r"] (by decide +kernel)).trans
      (Equiv.subtypeEquivRight (fun x => by rw [hv])), List.Nodup.getEquiv ["e"] (by decide +kernel), finCongr hlen.symm⟩, rfl, rfl, ?_⟩
    have hAA : C.mats.AA 0 "y" = 0 ∧ C.mats.AA 0 "r" = 1 := by
      rw [(hrow.2.2.2 _).1, (hrow.2.2.2 _).1]; decide +kernel
    have hBB : C.mats.BB 0 "y" = 1 ∧ C.mats.BB 0 "r" = 0 := by
      rw [(hrow.2.2.2 _).2.1, (hrow.2.2.2 _).2.1]; decide +kernel
    have hCC : C.mats.CC 0 "y" = -3/4 ∧ C.mats.CC 0 "r" = 0 := by
      rw [(hrow.2.2.2 _).2.2.1, (hrow.2.2.2 _).2.2.1]; decide +kernel
    have hPS : C.mats.PSI 0 "e" = 1 := by
      rw [(hrow.2.2.2 _).2.2.2]; decide +kernel
    have hR : ∀ v, C.con.bb v = -coef I src.con.setEqZero (vsym v 0) ∧ C.con.bbLag v = -coef I src.con.setEqZero (vsym v (-1)) ∧
        C.con.bbPSI v = -coef I src.con.setEqZero (ssym v) := by
      unfold getConstraint at h2
      split at h2
      · cases h2
      · split at h2
        · cases h2
        · simp only [Except.ok.injEq] at h2
          intro v; rw [← h2]; exact ⟨rfl, rfl, rfl⟩
    have hbb : C.con.bb "y" = 1 ∧ C.con.bb "r" = -1 ∧ C.con.bbLag "y" = 0 ∧ C.con.bbLag "r" = 0 ∧ C.con.bbPSI "e" = 0 := by
      rw [(hR _).1, (hR _).1, (hR _).2.1, (hR _).2.1, (hR _).2.2]; decide +kernel
    have hZ : ∀ h : 0 < C.obs.length, (C.obs[0]).1 "y" = -2 ∧ (C.obs[0]).1 "r" = 0 ∧ (C.obs[0]).2 = 1 := by
      intro h
      have hg' : getObs I C.mats.vars (fvarsOf C.st.eqs) oe = .ok C.obs[0] := hg
      obtain ⟨_, h0, h1⟩ := getObs_ok _ _ _ _ (C.obs[0]).1 (C.obs[0]).2 hg'
      rw [← h0, ← h1]; decide +kernel
    unfold inputOf Ex1.inpB yaml Input.ofYaml
    congr 1
    · funext i v; fin_cases i; fin_cases v
      · exact hAA.1
      · exact hAA.2
    · funext i v; fin_cases i; fin_cases v
      · exact hBB.1
      · exact hBB.2
    · funext i v; fin_cases i; fin_cases v
      · exact hCC.1
      · exact hCC.2
    · funext i v; fin_cases i; fin_cases v
      exact congrArg Neg.neg hPS
    · funext v; fin_cases v
      · show -C.con.bb "y" = _
        rw [hbb.1]; simp [Ex1.declB]
      · show -C.con.bb "r" = _
        rw [hbb.2.1]; simp [Ex1.declB]
    · funext v; fin_cases v
      · show -C.con.bbLag "y" = _
        rw [hbb.2.2.1]; rfl
      · show -C.con.bbLag "r" = _
        rw [hbb.2.2.2.1]; rfl
    · congr 1
      funext v; fin_cases v
      show -C.con.bbPSI "e" = _
      rw [hbb.2.2.2.2]; rfl
    · funext i v; fin_cases i; fin_cases v
      · exact (hZ (by omega)).1
      · exact (hZ (by omega)).2.1
    · funext i; fin_cases i
      exact (hZ (by omega)).2.2

/-- C82: all hypotheses hold for the file, with `x_bar = -1`; the conclusions apply to the expected path under the spell `(1, 3)` after the
shock `-9/4`, and a step with flag 0 in which the constraint binds exists. -/
example : ∃ (C : Compiled Rat) (L : Labels (Fin 1) (Fin 2) (Fin 1) (Fin 1) src.shocks C)
    (_ : DecidablePred (inall Ex1.tol (inputOf L 1 (-1)))) (lay : Layout Ex1.tol (inputOf L 1 (-1)) (Fin 0) (Fin 1) (Fin 1))
    (orc : Oracle (Rows (Fin 1) (Fin 0) (Fin 1)) (Fin 1 ⊕ Fin 1) (Fin 1) Rat) (mod : Model (Fin 1) (Fin 1) (Fin 1) (Fin 1) Rat),
    compile id I src = .ok C ∧ (L.vn 1 : String) = src.cvar ∧ Plain I src ∧ Succeeded lay orc 2 30 (serial 30) mod ∧
    (∃ X, ExpectedPath mod 1 3 0 (fun _ => -9/4) X ∧
      (∀ e ∈ src.eqs, ∀ t, 0 ≤ t → HoldsAt I (namedPath lay 0 (fun _ => -9/4) X) e t) ∧
      ∀ t : Nat, ∃ j, (L.on j : Nat) = 0 ∧ oFunc mod (X t) j = oe.eval I ((namedPath lay 0 (fun _ => -9/4) X).at t)) ∧
    ∃ r, tFunc mod 0 (fun _ => -9/4) .none false = .ok r ∧ r.flag = 0 ∧ r.k = 1 := by
  obtain ⟨C, L, hC, hcv, hin⟩ := input (-1)
  have key : ∃ (_ : DecidablePred (inall Ex1.tol (inputOf L 1 (-1)))) (lay : Layout Ex1.tol (inputOf L 1 (-1)) (Fin 0) (Fin 1) (Fin 1))
      (orc : Oracle (Rows (Fin 1) (Fin 0) (Fin 1)) (Fin 1 ⊕ Fin 1) (Fin 1) Rat) (mod : Model (Fin 1) (Fin 1) (Fin 1) (Fin 1) Rat),
      Succeeded lay orc 2 30 (serial 30) mod ∧ NoLagFwd (inputOf L 1 (-1)) ∧
        ∃ r, tFunc mod 0 (fun _ => -9/4) .none false = .ok r ∧ r.flag = 0 ∧ r.k = 1 := by
    rw [hin]
    obtain ⟨mod, h⟩ := Ex1.succeeds (b := -1) 2 30 (Ex1.serial_perm 2 30)
    obtain ⟨r, g1, g2, g3, g4, _⟩ := Ex1.binding_run 2 30 (by omega) (by omega) h
    exact ⟨inferInstance, Ex1.lay, Ex1.orc, mod, h, noLagFwd_of_rc rfl, r, g1, g4, g3⟩
  obtain ⟨dec, lay, orc, mod, h, hf, hr⟩ := key
  obtain ⟨X, hX⟩ := (C15_elapsed_spell_reproduces_expected_path h hf (l := 1) (k := 3) (by omega) (by omega) 0 (fun _ => -9/4)).1
  refine ⟨C, L, dec, lay, orc, mod, hC, hcv, plain, h, ⟨X, hX, ?_, fun t => ?_⟩, hr⟩
  · exact (C82_model_file_solved (fun d => List.Perm.refl d) hC hcv plain h (by omega) (by omega) 0 _ X hX).1
  · refine C82_observables hC h 0 (fun _ => -9/4) X 0 (by decide +kernel) (by simp [src, oe, Expr.PolyForm])
      ⟨fun _ => -2, 1, fun ρ => ?_⟩ (by decide +kernel) t
    have hs : (src.obs[0]'(by decide +kernel)).syms.toFinset = {vsym "y"} := by decide +kernel
    rw [hs, Finset.sum_singleton]
    simp only [src, List.getElem_cons_zero, oe, Expr.eval]
    ring

end Pydsge.FileEx
