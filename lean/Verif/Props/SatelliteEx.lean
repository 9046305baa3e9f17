import Verif.Props.Satellite
import Verif.Props.StabilityEx
import Verif.Props.UniqueEx
import Verif.Examples.Ex7

/-!
# C140: a case that meets the hypotheses

The model of `Ex1` and its extension by the growth rate of `y` (`Ex7`).
-/

set_option autoImplicit false
set_option linter.unusedSimpArgs false
set_option linter.unusedSectionVars false

namespace Pydsge

open Matrix Pydsge.Engine Pydsge.Spec Pydsge.Tools Pydsge.GenSys

/-- `y` and `r` in the larger model -/
def Ex7.emb : Fin 2 → Fin 3 := fun v => if v = 0 then 0 else 2

theorem Ex7.contains : Spec.Contains Ex7.emb (id : Fin 1 → Fin 1) Ex7.decl Ex1.decl := by
  refine ⟨fun a b c e h => ?_, rfl, fun x => ?_, fun x => ?_, fun x => ?_, rfl⟩
  · funext i
    have := congrFun h false
    simp [Ex7.decl, Ex1.declB, Ex7.emb, mulVec, dotProduct, Fin.sum_univ_succ] at this ⊢
    linarith
  all_goals simp [Ex7.decl, Ex1.declB, Ex7.emb, dotProduct, Fin.sum_univ_succ]

/-- The core has one path that returns to the steady state: `y - 1/2 y(-1)` grows by the factor `-3/2` otherwise. -/
theorem Ex1.determinate : Spec.Determinate (E := Fin 1) (ε := Fin 1) Spec.DiesOut Ex1.decl := by
  intro xlag eps x y hx hy hdx hdy
  let d : Nat → Rat := fun s => x s 0 - y s 0
  let e : Nat → Rat := fun s => d s - 1/2 * (prev xlag x s 0 - prev xlag y s 0)
  have hr : ∀ w, SolvesUnderSpell Ex1.decl xlag eps w 0 0 → ∀ s, w s 1 = w s 0 := by
    intro w hw s
    have := hw.slack s (by unfold BindsAt; omega)
    simpa [notional, Ex1.declB, dotProduct, Fin.sum_univ_succ] using this
  have hq : ∀ w, SolvesUnderSpell Ex1.decl xlag eps w 0 0 → ∀ s, w (s+1) 1 + w s 0 - 3/4 * prev xlag w s 0 - shockAt eps s 0 = 0 := by
    intro w hw s
    have := congrFun (hw.eqs s) 0
    simp [Ex1.declB, mulVec, dotProduct, Fin.sum_univ_succ] at this
    linarith
  have hstep : ∀ s, e (s+1) = -3/2 * e s := by
    intro s
    have h1 := hq x hx s
    have h2 := hq y hy s
    rw [hr x hx] at h1
    rw [hr y hy] at h2
    show (x (s+1) 0 - y (s+1) 0) - 1/2 * (x s 0 - y s 0) = -3/2 * ((x s 0 - y s 0) - 1/2 * (prev xlag x s 0 - prev xlag y s 0))
    linarith
  have hpow : ∀ s, |e s| = (3/2)^s * |e 0| := by
    intro s
    induction s with
    | zero => simp
    | succ s ih => rw [hstep, abs_mul, ih, pow_succ, abs_of_neg (by norm_num : (-3/2 : Rat) < 0)]; ring
  have he0 : e 0 = 0 := by
    by_contra hne
    have hpos : 0 < |e 0| := abs_pos.2 hne
    obtain ⟨N1, hN1⟩ := hdx (|e 0| / 8) (by positivity)
    obtain ⟨N2, hN2⟩ := hdy (|e 0| / 8) (by positivity)
    have a1 := abs_le.1 (hN1 (N1 + N2) (by omega) 0)
    have a2 := abs_le.1 (hN1 (N1 + N2 + 1) (by omega) 0)
    have a3 := abs_le.1 (hN2 (N1 + N2) (by omega) 0)
    have a4 := abs_le.1 (hN2 (N1 + N2 + 1) (by omega) 0)
    have h1 : |e (N1 + N2 + 1)| ≤ |e 0| / 2 := by
      show |(x (N1+N2+1) 0 - y (N1+N2+1) 0) - 1/2 * (x (N1+N2) 0 - y (N1+N2) 0)| ≤ |e 0| / 2
      rw [abs_le]
      constructor <;> linarith [a1.1, a1.2, a2.1, a2.2, a3.1, a3.2, a4.1, a4.2]
    rw [hpow] at h1
    have h2 : (1 : Rat) ≤ (3/2) ^ (N1 + N2 + 1) := one_le_pow₀ (by norm_num)
    have h3 : |e 0| ≤ (3/2) ^ (N1 + N2 + 1) * |e 0| := le_mul_of_one_le_left hpos.le h2
    linarith
  have hd : ∀ s, x s 0 = y s 0 := by
    intro s
    have hz : e s = 0 := by
      have := hpow s
      rw [he0] at this
      simpa using this
    induction s with
    | zero =>
      have hz' : (x 0 0 - y 0 0) - 1/2 * (xlag 0 - xlag 0) = 0 := hz
      linarith
    | succ s ih =>
      have hz' : (x (s+1) 0 - y (s+1) 0) - 1/2 * (x s 0 - y s 0) = 0 := hz
      have := ih (by have := hpow s; rw [he0] at this; simpa using this)
      rw [this] at hz'
      linarith
  funext s v
  fin_cases v
  · exact hd s
  · show x s 1 = y s 1
    rw [hr x hx, hr y hy, hd]

theorem Ex7.stable {lMax kMax : Nat} {sched : Nat → List Nat} {mod : Model (Fin 1) (Fin 1) Bool (Fin 1) Rat}
    (h : Succeeded Ex7.lay Ex7.orc lMax kMax sched mod) : Spec.LinearStable mod := by
  intro st X hX
  obtain ⟨c, hm⟩ := genSys_ok h.perm h.gen
  have hkl := hm.kl
  simp only [Ex7.orc, Except.ok.injEq, Prod.mk.injEq] at hkl
  have hs0 : ∀ s, shockAt (0 : Fin 1 → Rat) s = 0 := fun s => by cases s <;> rfl
  have hstep : ∀ s i, |X s i| = 1/2 * |prev st X s (.inr 0)| := by
    intro s i
    obtain ⟨r, h1, h2⟩ := hX s
    rw [tFunc_linear_eq h, hs0, ← hkl.1, ← hkl.2] at h1
    cases h1
    rw [h2]
    rcases i with (_ | _) | i <;>
      simp [mulVec, dotProduct, Fintype.sum_sum_type, q0Of, Ex7.omg, Ex7.lam, abs_mul]
    left
    norm_num [abs_of_neg]
  refine diesOut_of_geometric (C := |st (.inr 0)|) (q := 1/2) (by norm_num) (by norm_num) fun s => ?_
  induction s with
  | zero =>
    intro i
    rw [hstep, pow_zero, mul_one]
    have := abs_nonneg (st (.inr 0))
    show 1/2 * |st (.inr 0)| ≤ _
    linarith
  | succ s ih =>
    intro i
    rw [hstep, pow_succ]
    have := ih (.inr 0)
    show 1/2 * |X s (.inr 0)| ≤ _
    linarith

theorem Ex1.determinate' : Spec.Determinate (E := Fin 1) (ε := Fin 1) Spec.DiesOut (Spec.asSolved Ex1.decl) := by
  rw [Spec.asSolved_of Ex1.decl rfl (Or.inr rfl)]
  exact Ex1.determinate

/-- **C140**: the hypotheses are met; with the shock `-9/4` the constraint binds. -/
theorem C140_hypotheses_met : ∃ mod mod', Succeeded Ex1.lay Ex1.orc 2 30 (serial 30) mod ∧
    Succeeded Ex7.lay Ex7.orc 2 30 (serial 30) mod' ∧ Spec.Contains Ex7.emb (id : Fin 1 → Fin 1) Ex7.decl Ex1.decl ∧
    Spec.SameLinearCore Ex7.emb (id : Fin 1 → Fin 1) Ex1.lay mod Ex7.lay mod' ∧ Spec.LagsNotExpected Ex1.decl ∧ Spec.LagsNotExpected Ex7.decl ∧
    Ex1.decl.rb Ex1.decl.cvar ≠ 1 ∧ Ex7.decl.rb Ex7.decl.cvar = Ex1.decl.rb Ex1.decl.cvar ∧
    lagVal Ex1.lay 0 = lagVal Ex7.lay 0 ∘ Ex7.emb ∧
    ∃ r, tFunc mod 0 (fun _ => -9/4) .none false = .ok r ∧ r.flag = 0 ∧ r.k = 1 := by
  obtain ⟨mod, h⟩ := Ex1.succeeds 2 30 (Ex1.serial_perm 2 30)
  obtain ⟨mod', h'⟩ := Ex7.succeeds 2 30 (Ex1.serial_perm 2 30)
  have hs1 : Ex1.decl.rb Ex1.decl.cvar ≠ 1 := by show (if (1 : Fin 2) = 0 then (1 : Rat) else 0) ≠ 1; simp
  have hs2 : Ex7.decl.rb Ex7.decl.cvar = Ex1.decl.rb Ex1.decl.cvar := by
    show (if (2 : Fin 3) = 0 then (1 : Rat) else 0) = (if (1 : Fin 2) = 0 then (1 : Rat) else 0); simp
  obtain ⟨r, g1, g2, g3, g4, -, -⟩ := Ex1.binding_run 2 30 (by omega) (by omega) h
  refine ⟨mod, mod', h, h', Ex7.contains,
    C140_linear_of_stable h h' Ex7.contains (.of_rc rfl) (.of_rc rfl) hs1 hs2 (Ex1.stable h) (Ex7.stable h') Ex1.determinate', .of_rc rfl, .of_rc rfl, hs1, hs2, ?_,
    r, g1, g4, g3⟩
  funext v
  show lagVal Ex1.lay 0 v = lagVal Ex7.lay 0 (Ex7.emb v)
  unfold lagVal
  rw [if_neg (Ex1.not_inall v), if_neg (Ex7.not_inall _)]
  unfold Layout.val
  simp

/-- **C104**: the hypotheses of `C104_linear_of_stable` are met. -/
example : ∃ mod, Succeeded Ex1.lay Ex1.orc 2 30 (serial 30) mod ∧
    Succeeded (Flip.layout (fun _ => true) Ex1.lay) (Flip.oracle (fun _ => true) Ex1.orc) 2 30 (serial 30) mod ∧
    Spec.SameModel Ex1.decl (Flip.decl (fun _ => true) Ex1.decl) ∧ Spec.LinearStable mod ∧
    Spec.Determinate (E := Fin 1) (ε := Fin 1) Spec.DiesOut (Spec.asSolved Ex1.decl) := by
  obtain ⟨mod, h⟩ := Ex1.succeeds 2 30 (Ex1.serial_perm 2 30)
  exact ⟨mod, h, Flip.succeeded _ _ h, Flip.same _ _, Ex1.stable h, Ex1.determinate'⟩

end Pydsge
