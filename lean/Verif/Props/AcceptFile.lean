import Verif.Props.Accept

/-!
# C176: exactly which model files are accepted (the theorem)
-/

set_option autoImplicit false
set_option linter.unusedSectionVars false
set_option linter.unusedSimpArgs false

namespace Pydsge
open Matrix Parser Spec GenSys Engine Tools Pipeline Resolve

section
variable {K : Type} [Field K] {ord : List (TSym × TSym) → List (TSym × TSym)} {f : File K}

/-- No clashes of names. -/
def NoClash (f : File K) : Prop := (∀ n ∈ f.vars, n ∉ f.pars ∧ n ∉ f.shocks ∧ n ∉ f.other) ∧ ∀ n ∈ f.shocks, n ∉ f.other

abbrev ctxOf (f : File K) : String → Option Meaning := context f.vars f.pars f.shocks f.other

theorem ctx_var (h : NoClash f) (n : String) : ctxOf f n = some (.sym .variable) ↔ n ∈ f.vars := by
  constructor
  · intro hn; exact (context_variable hn).1
  · intro hn
    obtain ⟨h1, h2, h3⟩ := h.1 n hn
    rw [ctxOf, context_eq, if_neg h3, if_neg h2, if_neg h1, if_pos hn]

theorem ctx_shock (h : NoClash f) (n : String) : ctxOf f n = some (.sym .shock) ↔ n ∈ f.shocks := by
  constructor
  · intro hn; exact (context_shock hn).1
  · intro hn
    rw [ctxOf, context_eq, if_neg (h.2 n hn), if_pos hn]

theorem ctx_dated (h : NoClash f) (n : String) (hd : ctxOf f n ≠ none) : ctxOf f n ≠ some .par ↔ n ∈ f.vars ∨ n ∈ f.shocks := by
  rw [← ctx_var h, ← ctx_shock h]
  cases hc : ctxOf f n with
  | none => exact absurd hc hd
  | some m =>
    cases m with
    | par => simp
    | sym k => cases k <;> simp

theorem ctx_declared (n : String) : ctxOf f n ≠ none ↔ n ∈ f.vars ∨ n ∈ f.pars ∨ n ∈ f.shocks ∨ n ∈ f.other := by
  rw [Ne, ctxOf, context_none]
  tauto

theorem readable_iff (h : NoClash f) (r : Raw K) : (∃ e, evalRaw (ctxOf f) r = .ok e) ↔ Readable f r := by
  rw [evalRaw_iff]
  unfold Readable
  simp only [ctx_declared]
  refine and_congr_right fun h1 => forall_congr' fun n => forall_congr' fun hn => ?_
  exact ctx_dated h n ((ctx_declared n).2 (h1 n (called_names r n hn)))

theorem readableObs_iff (h : NoClash f) (r : Raw K) :
    (∃ e, evalRaw (obsContext (ctxOf f)) r = .ok e) ↔ Readable f r ∧ "sum" ∉ names r ∧ "range" ∉ names r := by
  rw [evalRaw_iff, ← readable_iff h, evalRaw_iff]
  constructor
  · rintro ⟨h1, h2⟩
    have h3 : ∀ n ∈ names r, ¬ (n = "sum" ∨ n = "range") := by
      intro n hn hs
      exact h1 n hn (by unfold obsContext; rw [if_pos hs])
    refine ⟨⟨fun n hn => ?_, fun n hn => ?_⟩, fun hs => h3 _ hs (Or.inl rfl), fun hs => h3 _ hs (Or.inr rfl)⟩
    · have := h1 n hn
      unfold obsContext at this
      rwa [if_neg (h3 n hn)] at this
    · have := h2 n hn
      unfold obsContext at this
      rwa [if_neg (h3 n (called_names r n hn))] at this
  · rintro ⟨⟨h1, h2⟩, h3, h4⟩
    have h5 : ∀ n ∈ names r, ¬ (n = "sum" ∨ n = "range") := by
      rintro n hn (rfl | rfl)
      · exact h3 hn
      · exact h4 hn
    refine ⟨fun n hn => ?_, fun n hn => ?_⟩
    · unfold obsContext; rw [if_neg (h5 n hn)]; exact h1 n hn
    · unfold obsContext; rw [if_neg (h5 n (called_names r n hn))]; exact h2 n hn

theorem file_dates (h : NoClash f) {eqs : List (Eqn K)} (hE : readEqs (ctxOf f) f.eqs = .ok eqs) (k : Kind) (n : String) (d : Int) :
    d ∈ dates k n eqs ↔ At f n d ∧ ctxOf f n = some (.sym k) := by
  have hF := readEqs_ok _ _ _ hE
  rw [mem_dates_iff]
  constructor
  · rintro ⟨e', he', s, hs, hk, hn, hd⟩
    obtain ⟨i, hi⟩ := List.mem_iff_getElem?.1 he'
    obtain ⟨e, hie, hr⟩ := forall2_right hF i e' hi
    obtain ⟨r, hr', n', d', k', ho, hc, rfl⟩ := (readEq_occ hr s).1 hs
    simp only [TSym.mk'] at hk hn hd
    subst hk hn hd
    exact ⟨⟨e, List.mem_of_getElem? hie, r, hr', ho⟩, hc⟩
  · rintro ⟨⟨e, he, r, hr, ho⟩, hc⟩
    obtain ⟨i, hi⟩ := List.mem_iff_getElem?.1 he
    obtain ⟨e', hie, hr'⟩ := forall2_left hF i e hi
    exact ⟨e', List.mem_of_getElem? hie, TSym.mk' k n d, (readEq_occ hr' _).2 ⟨r, hr, n, d, k, ho, hc, rfl⟩, rfl, rfl, rfl⟩

theorem file_wf (h : NoClash f) {eqs : List (Eqn K)} (hE : readEqs (ctxOf f) f.eqs = .ok eqs) : WellFormed f.vars f.shocks eqs := by
  intro e' he' s hs
  obtain ⟨i, hi⟩ := List.mem_iff_getElem?.1 he'
  obtain ⟨e, hie, hr⟩ := forall2_right (readEqs_ok _ _ _ hE) i e' hi
  obtain ⟨r, _, n, d, k, _, hc, rfl⟩ := (readEq_occ hr s).1 hs
  refine ⟨rfl, fun hk => ?_, fun hk => ?_⟩
  · have hk' : k = .variable := hk
    subst hk'
    exact (ctx_var h n).1 hc
  · have hk' : k = .shock := hk
    subst hk'
    exact (ctx_shock h n).1 hc

theorem At_names {n : String} : (∃ d, At f n d) ↔ ∃ e ∈ f.eqs, n ∈ eqNames e := by
  constructor
  · rintro ⟨d, e, he, r, hr, ho⟩
    refine ⟨e, he, ?_⟩
    have := (occ_names r n).2 ⟨d, ho⟩
    rcases List.mem_cons.1 hr with rfl | hr
    · exact List.mem_append_left _ this
    · exact List.mem_append_right _ (List.mem_flatMap.2 ⟨r, hr, this⟩)
  · rintro ⟨e, he, hn⟩
    rcases List.mem_append.1 hn with hn | hn
    · obtain ⟨d, hd⟩ := (occ_names _ n).1 hn
      exact ⟨d, e, he, e.first, List.mem_cons_self .., hd⟩
    · obtain ⟨r, hr, hn⟩ := List.mem_flatMap.1 hn
      obtain ⟨d, hd⟩ := (occ_names _ n).1 hn
      exact ⟨d, e, he, r, List.mem_cons_of_mem _ hr, hd⟩

theorem eq_syms_nil (h : NoClash f) {e : RawEq K} {e' : Eqn K} (hr : readEq (ctxOf f) e = .ok e') :
    e'.syms = [] ↔ ∀ n ∈ eqNames e, n ∉ f.vars ∧ n ∉ f.shocks := by
  have hocc : ∀ n, n ∈ eqNames e ↔ ∃ r ∈ e.first :: e.rest, ∃ d, (n, d) ∈ occ r := by
    intro n
    simp only [eqNames, List.mem_append, List.mem_flatMap, occ_names, List.mem_cons, exists_eq_or_imp]
  rw [List.eq_nil_iff_forall_not_mem]
  constructor
  · intro hs n hn
    obtain ⟨r, hr', d, ho⟩ := (hocc n).1 hn
    refine ⟨fun hv => hs (vsym n d) ((readEq_occ hr _).2 ⟨r, hr', n, d, .variable, ho, (ctx_var h n).2 hv, rfl⟩), fun hv => ?_⟩
    exact hs (ssym n d) ((readEq_occ hr _).2 ⟨r, hr', n, d, .shock, ho, (ctx_shock h n).2 hv, rfl⟩)
  · intro hn s hs
    obtain ⟨r, hr', n, d, k, ho, hc, rfl⟩ := (readEq_occ hr s).1 hs
    have := hn n ((hocc n).2 ⟨r, hr', d, ho⟩)
    cases k with
    | «variable» => exact this.1 ((ctx_var h n).1 hc)
    | shock => exact this.2 ((ctx_shock h n).1 hc)

/-- What the system of equations of a file without clashes has to satisfy. -/
theorem file_system_iff (I : Interp K) (ho : IsOrder ord) (h : NoClash f) (hnd : f.shocks.Nodup) {eqs : List (Eqn K)}
    (hE : readEqs (ctxOf f) f.eqs = .ok eqs) :
    (∃ st M, parseEqs ord f.vars f.shocks eqs = .ok st ∧ getMatrices I true st.vars f.shocks st.eqs = .ok M) ↔
      f.eqs.length + 1 = f.vars.length ∧ (∀ n, n ∈ f.vars ∨ n ∈ f.shocks → ∃ e ∈ f.eqs, n ∈ eqNames e) ∧
      (∀ e ∈ f.eqs, ∀ r ∈ e.first :: e.rest, ∀ n d, (n, d) ∈ occ r → n ∈ f.shocks → d ≤ 0) ∧
      ((f.vars.Nodup ∧ ∀ x, Added f.vars f.shocks (At f) (At f) x → x ∉ f.vars) ∨
        ((∀ x, ¬ Added f.vars f.shocks (At f) (At f) x) ∧
          ∀ i e, f.eqs[i]? = some e → f.vars.dedup.length ≤ i + 1 → ∀ n ∈ eqNames e, n ∉ f.vars ∧ n ∉ f.shocks)) := by
  have hF := readEqs_ok _ _ _ hE
  have hv : ∀ v ∈ f.vars, ∀ d, d ∈ dates .variable v eqs ↔ At f v d := by
    intro v hv d
    rw [file_dates h hE, ctx_var h]
    exact and_iff_left hv
  have hs : ∀ s ∈ f.shocks, ∀ d, d ∈ dates .shock s eqs ↔ At f s d := by
    intro s hs d
    rw [file_dates h hE, ctx_shock h]
    exact and_iff_left hs
  have hadd : ∀ x, AddedE f.vars f.shocks eqs x ↔ Added f.vars f.shocks (At f) (At f) x := Added_congr hv hs
  rw [system_iff I ho (file_wf h hE) hnd, hF.length_eq]
  simp only [hadd]
  have h1 : ((∀ s ∈ f.shocks, dates .shock s eqs ≠ []) ∧ (∀ v ∈ f.vars, dates .variable v eqs ≠ [])) ↔
      ∀ n, n ∈ f.vars ∨ n ∈ f.shocks → ∃ e ∈ f.eqs, n ∈ eqNames e := by
    have ha : (∀ s ∈ f.shocks, dates .shock s eqs ≠ []) ↔ ∀ s ∈ f.shocks, ∃ e ∈ f.eqs, s ∈ eqNames e := by
      refine forall_congr' fun s => forall_congr' fun hm => ?_
      rw [← At_names]
      simp only [← hs s hm]
      rw [Ne, List.eq_nil_iff_forall_not_mem]; push Not; rfl
    have hb : (∀ v ∈ f.vars, dates .variable v eqs ≠ []) ↔ ∀ s ∈ f.vars, ∃ e ∈ f.eqs, s ∈ eqNames e := by
      refine forall_congr' fun s => forall_congr' fun hm => ?_
      rw [← At_names]
      simp only [← hv s hm]
      rw [Ne, List.eq_nil_iff_forall_not_mem]; push Not; rfl
    rw [ha, hb]
    exact ⟨fun ⟨a, b⟩ n hn => hn.elim (b n) (a n), fun a => ⟨fun n hn => a n (Or.inr hn), fun n hn => a n (Or.inl hn)⟩⟩
  have h2 : (∀ s d, d ∈ dates .shock s eqs → d ≤ 0) ↔
      ∀ e ∈ f.eqs, ∀ r ∈ e.first :: e.rest, ∀ n d, (n, d) ∈ occ r → n ∈ f.shocks → d ≤ 0 := by
    constructor
    · intro a e he r hr n d hocc hn
      exact a n d ((hs n hn d).2 ⟨e, he, r, hr, hocc⟩)
    · intro a s d hd
      obtain ⟨⟨e, he, r, hr, hocc⟩, hc⟩ := (file_dates h hE .shock s d).1 hd
      exact a e he r hr s d hocc ((ctx_shock h s).1 hc)
  have h3 : (∀ i e, eqs[i]? = some e → f.vars.dedup.length ≤ i + 1 → e.syms = []) ↔
      ∀ i e, f.eqs[i]? = some e → f.vars.dedup.length ≤ i + 1 → ∀ n ∈ eqNames e, n ∉ f.vars ∧ n ∉ f.shocks := by
    constructor
    · intro a i e he hle
      obtain ⟨e', he', hr⟩ := forall2_left hF i e he
      exact (eq_syms_nil h hr).1 (a i e' he' hle)
    · intro a i e' he' hle
      obtain ⟨e, he, hr⟩ := forall2_right hF i e' he'
      exact (eq_syms_nil h hr).2 (a i e he hle)
  rw [h2, h3]
  constructor
  · rintro ⟨a, b, c, d, e⟩; exact ⟨a, h1.1 ⟨b, c⟩, d, e⟩
  · rintro ⟨a, b, d, e⟩; exact ⟨a, (h1.2 b).1, (h1.2 b).2, d, e⟩

/-- **C176**: `DSGE.parse` together with the matrices accepts a file iff it is one of `Spec.Accepted`, whatever the order in which
dictionaries are gone through and whatever the parameters are. The shocks are the keys of a mapping. -/
theorem C176_accepted_iff (I : Interp K) (ho : IsOrder ord) (f : File K) (hnd : f.shocks.Nodup) :
    (∃ x, readFile ord I f = .ok x) ↔ Spec.Accepted f := by
  constructor
  · rintro ⟨⟨src, C⟩, hx⟩
    have hcl : NoClash f := C121_clashes_rejected_partial ho hx
    obtain ⟨hsp, hlen, c, r, rhs, eqs, obs, hcons, hc, hr, hE, hO, C', hC⟩ := (readFile_iff I f).1 ⟨_, hx⟩
    obtain ⟨hcv, st, M, hp, hM, hR, os, hos⟩ := (compile_iff I _).1 ⟨C', hC⟩
    simp only at hcv hp hM hR hos
    obtain ⟨_, hused, hlead, hdist⟩ := (file_system_iff I ho hcl hnd hE).1 ⟨st, M, hp, hM⟩
    have heq := (readEqs_iff (ctxOf f) f.eqs).1 ⟨eqs, hE⟩
    have hobs := (readObs_iff (obsContext (ctxOf f)) f.obs).1 ⟨obs, hO⟩
    refine ⟨hsp, hcl.1, hcl.2, ⟨c, r, hcons, hcv, (readable_iff hcl r).1 ⟨rhs, hr⟩, ?_⟩, hlen, ?_, hused, hdist, ?_⟩
    · intro n d hocc
      have hsym := (getConstraint_iff I _ _ _).1 hR
      refine ⟨fun hn => ?_, fun hn => ?_⟩
      · have hm : vsym n d ∈ (Source.con ⟨f.vars, f.shocks, eqs, c, rhs, obs⟩).syms :=
          List.mem_append_right _ ((evalRaw_occ _ _ _ hr _).2 ⟨n, d, .variable, hocc, (ctx_var hcl n).2 hn, rfl⟩)
        rcases hsym _ hm with ⟨v, _, hv | hv⟩ | ⟨v, _, hv⟩
        · exact Or.inl (vsym_inj.1 hv).2
        · exact Or.inr (vsym_inj.1 hv).2
        · exact absurd hv vsym_ne_ssym
      · have hm : ssym n d ∈ (Source.con ⟨f.vars, f.shocks, eqs, c, rhs, obs⟩).syms :=
          List.mem_append_right _ ((evalRaw_occ _ _ _ hr _).2 ⟨n, d, .shock, hocc, (ctx_shock hcl n).2 hn, rfl⟩)
        rcases hsym _ hm with ⟨v, _, hv | hv⟩ | ⟨v, _, hv⟩
        · exact absurd hv.symm vsym_ne_ssym
        · exact absurd hv.symm vsym_ne_ssym
        · exact (ssym_inj.1 hv).2
    · intro e he
      obtain ⟨h1, h2⟩ := (readEq_iff (ctxOf f) e).1 (heq e he)
      exact ⟨h1, fun r hr => ⟨(readable_iff hcl r).1 (h2 r hr), hlead e he r hr⟩⟩
    · intro r hr
      obtain ⟨i, hi⟩ := List.mem_iff_getElem?.1 hr
      obtain ⟨oe, hoe, hev⟩ := forall2_left (readObs_ok _ _ _ hO) i r hi
      have hacc := (C21_accepted_iff I _ _ oe).1 ((obsRows_iff I _ _ _).1 ⟨os, hos⟩ oe (List.mem_of_getElem? hoe))
      obtain ⟨h1, h2, h3⟩ := (readableObs_iff hcl r).1 ⟨oe, hev⟩
      refine ⟨(evalRaw_hasName _ r oe hev).1 hacc.1, h1, h2, h3, fun n d hocc => ?_⟩
      have hn' : ¬ (n = "sum" ∨ n = "range") := by
        have := (occ_names r n).2 ⟨d, hocc⟩
        rintro (rfl | rfl)
        · exact h2 this
        · exact h3 this
      refine ⟨fun hn => ?_, fun hn => ?_⟩
      · have hm : ssym n d ∈ oe.syms := (evalRaw_occ _ _ _ hev _).2
          ⟨n, d, .shock, hocc, by unfold obsContext; rw [if_neg hn']; exact (ctx_shock hcl n).2 hn, rfl⟩
        obtain ⟨v, _, hv | hv⟩ := hacc.2 _ hm
        · exact absurd hv.symm vsym_ne_ssym
        · exact absurd hv.symm vsym_ne_ssym
      · have hm : vsym n d ∈ oe.syms := (evalRaw_occ _ _ _ hev _).2
          ⟨n, d, .variable, hocc, by unfold obsContext; rw [if_neg hn']; exact (ctx_var hcl n).2 hn, rfl⟩
        obtain ⟨v, _, hv | hv⟩ := hacc.2 _ hm
        · exact Or.inl (vsym_inj.1 hv).2
        · exact Or.inr (vsym_inj.1 hv).2
  · rintro ⟨hsp, hcl1, hcl2, ⟨c, r, hcons, hcv, hread, hcon⟩, hlen, heq, hused, hdist, hobs⟩
    have hcl : NoClash f := ⟨hcl1, hcl2⟩
    obtain ⟨rhs, hr⟩ := (readable_iff hcl r).2 hread
    obtain ⟨eqs, hE⟩ := (readEqs_iff (ctxOf f) f.eqs).2 (fun e he =>
      (readEq_iff (ctxOf f) e).2 ⟨(heq e he).1, fun r hr => (readable_iff hcl r).2 ((heq e he).2 r hr).1⟩)
    obtain ⟨obs, hO⟩ := (readObs_iff (obsContext (ctxOf f)) f.obs).2 (fun r hr =>
      (readableObs_iff hcl r).2 ⟨(hobs r hr).2.1, (hobs r hr).2.2.1, (hobs r hr).2.2.2.1⟩)
    obtain ⟨st, M, hp, hM⟩ := (file_system_iff I ho hcl hnd hE).2
      ⟨hlen, hused, fun e he r hr => ((heq e he).2 r hr).2, hdist⟩
    have hsub : ∀ v ∈ f.vars, v ∈ st.vars := by
      obtain ⟨_, rfl⟩ := parseEqs_ok hp
      intro v hv
      rw [endoStage_vars]
      refine List.mem_append_left _ ?_
      have hv1 : (shockStage ord f.vars f.shocks eqs).vars = f.vars ++ (lagged (lagOf eqs) f.shocks).map varOf :=
        shockFold_vars ord _ f.shocks ⟨f.vars, eqs⟩
      rw [hv1]
      exact List.mem_append_left _ hv
    refine (readFile_iff I f).2 ⟨hsp, hlen, c, r, rhs, eqs, obs, hcons, (ctx_declared c).2 (Or.inl hcv), hr, hE, hO,
      (compile_iff I _).2 ⟨hcv, st, M, hp, hM, (getConstraint_iff I _ _ _).2 ?_, (obsRows_iff I _ _ _).2 ?_⟩⟩
    · intro s hs
      rcases List.mem_append.1 hs with hs | hs
      · simp only [Source.con, Expr.syms, List.mem_singleton] at hs
        exact Or.inl ⟨c, (mem_unique _ _).2 (hsub c hcv), Or.inl hs⟩
      · obtain ⟨n, d, k, hocc, hc, rfl⟩ := (evalRaw_occ _ _ _ hr s).1 hs
        cases k with
        | «variable» =>
          have hn := (ctx_var hcl n).1 hc
          rcases (hcon n d hocc).1 hn with rfl | rfl
          · exact Or.inl ⟨n, (mem_unique _ _).2 (hsub n hn), Or.inl rfl⟩
          · exact Or.inl ⟨n, (mem_unique _ _).2 (hsub n hn), Or.inr rfl⟩
        | shock =>
          have hn := (ctx_shock hcl n).1 hc
          have := (hcon n d hocc).2 hn
          subst this
          exact Or.inr ⟨n, hn, rfl⟩
    · intro oe hoe
      obtain ⟨i, hi⟩ := List.mem_iff_getElem?.1 hoe
      obtain ⟨r', hr', hev⟩ := forall2_right (readObs_ok _ _ _ hO) i oe hi
      obtain ⟨h1, h2, h3, h4, h5⟩ := hobs r' (List.mem_of_getElem? hr')
      refine (C21_accepted_iff I _ _ oe).2 ⟨(evalRaw_hasName _ r' oe hev).2 h1, fun s hs => ?_⟩
      obtain ⟨n, d, k, hocc, hc, rfl⟩ := (evalRaw_occ _ _ _ hev s).1 hs
      have hn' : ¬ (n = "sum" ∨ n = "range") := by
        have := (occ_names r' n).2 ⟨d, hocc⟩
        rintro (rfl | rfl)
        · exact h3 this
        · exact h4 this
      unfold obsContext at hc
      rw [if_neg hn'] at hc
      cases k with
      | «variable» =>
        have hn := (ctx_var hcl n).1 hc
        rcases (h5 n d hocc).2 hn with rfl | rfl
        · exact ⟨n, (mem_unique _ _).2 (hsub n hn), Or.inl rfl⟩
        · exact ⟨n, (mem_unique _ _).2 (hsub n hn), Or.inr rfl⟩
      | shock => exact absurd ((ctx_shock hcl n).1 hc) (h5 n d hocc).1

/-- **C176**: neither the order of dictionaries nor the values of the parameters decide on acceptance. -/
theorem C176_order_values {ord' : List (TSym × TSym) → List (TSym × TSym)} (I I' : Interp K) (ho : IsOrder ord) (ho' : IsOrder ord')
    (hnd : f.shocks.Nodup) : (∃ x, readFile ord I f = .ok x) ↔ ∃ x, readFile ord' I' f = .ok x := by
  rw [C176_accepted_iff I ho f hnd, C176_accepted_iff I' ho' f hnd]

theorem Readable_congr {f g : File K} (hv : ∀ n, n ∈ f.vars ↔ n ∈ g.vars) (hs : ∀ n, n ∈ f.shocks ↔ n ∈ g.shocks)
    (hp : ∀ n, n ∈ f.pars ↔ n ∈ g.pars) (ho : ∀ n, n ∈ f.other ↔ n ∈ g.other) (r : Raw K) : Readable f r ↔ Readable g r := by
  unfold Readable
  simp only [hv, hs, hp, ho]

theorem Added_sets {vars vars' shocks shocks' : List String} {A B : String → Int → Prop} (hv : ∀ n, n ∈ vars ↔ n ∈ vars')
    (hs : ∀ n, n ∈ shocks ↔ n ∈ shocks') {x : String} (h : Added vars shocks A B x) : Added vars' shocks' A B x := by
  cases h with
  | shock s d h1 h2 h3 => exact .shock s d ((hs s).1 h1) h2 h3
  | shockLag s d j h1 h2 h3 h4 => exact .shockLag s d j ((hs s).1 h1) h2 h3 h4
  | lag v j h1 h2 h3 => exact .lag v j ((hv v).1 h1) h2 h3
  | lead v j h1 h2 h3 => exact .lead v j ((hv v).1 h1) h2 h3

/-- A file with the same declarations and measurement equations in another order. -/
structure SameDecl (f g : File K) : Prop where
  vars : f.vars.Perm g.vars
  pars : f.pars.Perm g.pars
  shocks : f.shocks.Perm g.shocks
  other : f.other.Perm g.other
  obs : f.obs.Perm g.obs
  cons : f.cons = g.cons

theorem SameDecl.symm {f g : File K} (h : SameDecl f g) : SameDecl g f :=
  ⟨h.vars.symm, h.pars.symm, h.shocks.symm, h.other.symm, h.obs.symm, h.cons.symm⟩

theorem Accepted_decl {f g : File K} (hd : SameDecl f g) (he : f.eqs = g.eqs ∨ (f.vars.Nodup ∧ f.eqs.Perm g.eqs)) (h : Accepted f) :
    Accepted g := by
  obtain ⟨hv, hp, hs, ho, hob, hc⟩ := hd
  have mv := fun n => hv.mem_iff (a := n)
  have ms := fun n => hs.mem_iff (a := n)
  have mp := fun n => hp.mem_iff (a := n)
  have mo := fun n => ho.mem_iff (a := n)
  have hr := Readable_congr (f := f) (g := g) mv ms mp mo
  have hperm : f.eqs.Perm g.eqs := he.elim (fun e => e ▸ List.Perm.refl _) And.right
  have me := fun e => hperm.mem_iff (a := e)
  have hat : At g = At f := by
    funext n d
    unfold At
    simp only [me]
  obtain ⟨h1, h2, h3, ⟨c, r, h4, h5, h6, h7⟩, h8, h9, h10, h11, h12⟩ := h
  refine ⟨?_, ?_, ?_, ⟨c, r, hc ▸ h4, (mv c).1 h5, (hr r).1 h6, ?_⟩, ?_, ?_, ?_, ?_, ?_⟩
  · intro v hv'; exact h1 v ((mv v).2 hv')
  · intro n hn
    obtain ⟨a, b, c⟩ := h2 n ((mv n).2 hn)
    exact ⟨fun x => a ((mp n).2 x), fun x => b ((ms n).2 x), fun x => c ((mo n).2 x)⟩
  · intro n hn x; exact h3 n ((ms n).2 hn) ((mo n).2 x)
  · intro n d hocc
    exact ⟨fun hn => (h7 n d hocc).1 ((mv n).2 hn), fun hn => (h7 n d hocc).2 ((ms n).2 hn)⟩
  · rw [← hperm.length_eq, ← hv.length_eq]; exact h8
  · intro e hm
    obtain ⟨a, b⟩ := h9 e ((me e).2 hm)
    exact ⟨a, fun r hr' => ⟨(hr r).1 (b r hr').1, fun n d ho' hn => (b r hr').2 n d ho' ((ms n).2 hn)⟩⟩
  · intro n hn
    obtain ⟨e, hm, hn'⟩ := h10 n (hn.imp (mv n).2 (ms n).2)
    exact ⟨e, (me e).1 hm, hn'⟩
  · rw [hat]
    have back : ∀ x, Added g.vars g.shocks (At f) (At f) x → Added f.vars f.shocks (At f) (At f) x :=
      fun x => Added_sets (fun n => (mv n).symm) (fun n => (ms n).symm)
    rcases he with he | ⟨hnd, _⟩
    · rcases h11 with ⟨a, b⟩ | ⟨a, b⟩
      · exact Or.inl ⟨hv.nodup_iff.1 a, fun x hx hm => b x (back x hx) ((mv x).2 hm)⟩
      · refine Or.inr ⟨fun x hx => a x (back x hx), ?_⟩
        intro i e hi hle n hn
        rw [← he] at hi
        rw [← hv.dedup.length_eq] at hle
        obtain ⟨x, y⟩ := b i e hi hle n hn
        exact ⟨fun z => x ((mv n).2 z), fun z => y ((ms n).2 z)⟩
    · refine Or.inl ⟨hv.nodup_iff.1 hnd, fun x hx hm => ?_⟩
      rcases h11 with ⟨_, b⟩ | ⟨a, _⟩
      · exact b x (back x hx) ((mv x).2 hm)
      · exact a x (back x hx)
  · intro r hm
    obtain ⟨a, b, c, d, e⟩ := h12 r (hob.mem_iff.2 hm)
    exact ⟨a, (hr r).1 b, c, d, fun n d' hocc => ⟨fun hn => (e n d' hocc).1 ((ms n).2 hn), fun hn => (e n d' hocc).2 ((mv n).2 hn)⟩⟩

/-- **C176**: the order of the declarations and of the measurement equations does not matter for acceptance, and if no variable is declared
twice the order of the equations does not matter either. -/
theorem C176_reordered (I : Interp K) (ho : IsOrder ord) {g : File K} (hnd : f.shocks.Nodup) (hd : SameDecl f g)
    (he : f.eqs = g.eqs ∨ (f.vars.Nodup ∧ f.eqs.Perm g.eqs)) :
    (∃ x, readFile ord I f = .ok x) ↔ ∃ x, readFile ord I g = .ok x := by
  rw [C176_accepted_iff I ho f hnd, C176_accepted_iff I ho g (hd.shocks.nodup_iff.1 hnd)]
  refine ⟨Accepted_decl hd he, Accepted_decl hd.symm ?_⟩
  exact he.imp Eq.symm fun ⟨a, b⟩ => ⟨hd.vars.nodup_iff.1 a, b.symm⟩

/-- **C176**: a variable that is declared twice makes a file invalid, unless there is an equation without variables and shocks and no variable
has to be added. -/
theorem C176_doublets (I : Interp K) (ho : IsOrder ord) (hnd : f.shocks.Nodup) {x : Source K × Compiled K} (hx : readFile ord I f = .ok x)
    (hdup : ¬ f.vars.Nodup) : (∀ y, ¬ Added f.vars f.shocks (At f) (At f) y) ∧
      ∃ e ∈ f.eqs, ∀ n ∈ eqNames e, n ∉ f.vars ∧ n ∉ f.shocks := by
  have h := (C176_accepted_iff I ho f hnd).1 ⟨x, hx⟩
  rcases h.distinct with ⟨a, _⟩ | ⟨a, b⟩
  · exact absurd a hdup
  refine ⟨a, ?_⟩
  have hlt : f.vars.dedup.length < f.vars.length := by
    refine lt_of_le_of_ne (List.dedup_sublist _).length_le fun he => hdup ?_
    rw [← (List.dedup_sublist f.vars).eq_of_length he]
    exact List.nodup_dedup _
  have hc := h.count
  have hpos : f.eqs.length - 1 < f.eqs.length := by
    rcases Nat.eq_zero_or_pos f.eqs.length with h0 | h0
    · exfalso
      have h1 : f.vars.length = 1 := by omega
      obtain ⟨v, hv⟩ := List.length_eq_one_iff.1 h1
      exact hdup (hv ▸ List.nodup_singleton v)
    · omega
  exact ⟨_, List.getElem_mem hpos, b _ _ (List.getElem?_eq_getElem hpos) (by omega)⟩

/-- **C176**: what is allowed in an equation need not be allowed in the constraint: a lag of two periods of a variable or a lag of a shock. -/
theorem C176_constraint_dates (I : Interp K) (ho : IsOrder ord) (hnd : f.shocks.Nodup) {c n : String} {r : Raw K} {d : Int}
    (hc : f.cons = [(c, [r])]) (hocc : (n, d) ∈ occ r) (h : n ∈ f.vars ∧ d ≠ 0 ∧ d ≠ -1 ∨ n ∈ f.shocks ∧ d ≠ 0) :
    ¬ ∃ x, readFile ord I f = .ok x := by
  rw [C176_accepted_iff I ho f hnd]
  rintro ⟨-, -, -, ⟨c', r', h1, -, -, h2⟩, -⟩
  have h3 : c = c' ∧ r = r' := by simpa using hc.symm.trans h1
  obtain ⟨rfl, rfl⟩ := h3
  rcases h with ⟨hn, h0, h1⟩ | ⟨hn, h0⟩
  · exact ((h2 n d hocc).1 hn).elim h0 h1
  · exact h0 ((h2 n d hocc).2 hn)

end

namespace AcceptEx
open ResolveEx FileEx

theorem isOrder_id : IsOrder id := fun d => List.Perm.refl d

theorem ok_of {x : Except PyErr (Source Rat × Compiled Rat)} (h : x.toOption.isSome = true) : ∃ a, x = .ok a := by
  cases x with
  | error e => cases h
  | ok a => exact ⟨a, rfl⟩

theorem not_ok_of {x : Except PyErr (Source Rat × Compiled Rat)} (h : x.toOption.isSome = false) : ¬ ∃ a, x = .ok a := by
  rintro ⟨a, rfl⟩
  cases h

/-- The file of C121 is accepted. -/
theorem file_accepted : Accepted file :=
  (C176_accepted_iff I isOrder_id file (by decide +kernel)).1 (ok_of (by decide +kernel))

/-- `y = y(-3) - r(+2) + e(-2)`: five variables are added. -/
def long : File Rat := { file with eqs := [⟨.name "y", [.add (.sub (.call "y" (-3)) (.call "r" 2)) (.call "e" (-2))]⟩] }

theorem long_accepted : Accepted long :=
  (C176_accepted_iff I isOrder_id long (by decide +kernel)).1 (ok_of (by decide +kernel))

/-- The same with a variable that has the name of an added one. -/
def clash : File Rat := { long with vars := ["y", "r", "y_LAG2"], eqs := long.eqs ++ [⟨.name "y_LAG2", [.name "r"]⟩] }

theorem clash_rejected : ¬ Accepted clash := fun h =>
  absurd ((C176_accepted_iff I isOrder_id clash (by decide +kernel)).2 h) (not_ok_of (by decide +kernel))

/-- It is the name: with another one the file is accepted. -/
example : Accepted { long with vars := ["y", "r", "z"], eqs := long.eqs ++ [⟨.name "z", [.name "r"]⟩] } :=
  (C176_accepted_iff I isOrder_id _ (by decide +kernel)).1 (ok_of (by decide +kernel))

/-- `r` is declared twice, with the equation `a = a`. -/
def twice : File Rat := { file with vars := ["y", "r", "r"], eqs := file.eqs ++ [⟨.name "a", [.name "a"]⟩] }

theorem twice_accepted : Accepted twice ∧ ¬ twice.vars.Nodup :=
  ⟨(C176_accepted_iff I isOrder_id twice (by decide +kernel)).1 (ok_of (by decide +kernel)), by decide +kernel⟩

/-- With that equation in front the file is rejected: the order of the equations matters then. -/
example : ¬ ∃ x, readFile id I { twice with eqs := ⟨.name "a", [.name "a"]⟩ :: file.eqs } = .ok x := not_ok_of (by decide +kernel)

/-- `r` is declared twice, with another equation: rejected. -/
example : ¬ ∃ x, readFile id I { twice with eqs := file.eqs ++ [⟨.name "r", [.call "y" (-1)]⟩] } = .ok x := not_ok_of (by decide +kernel)

/-- A lag of two periods is accepted in an equation and not in the constraint. -/
example : (∃ x, readFile id I { file with eqs := [⟨.name "y", [.add (.call "y" (-2)) (.add (.name "r") (.name "e"))]⟩] } = .ok x) ∧
    ¬ ∃ x, readFile id I { file with cons := [("r", [.call "y" (-2)])] } = .ok x :=
  ⟨ok_of (by decide +kernel), C176_constraint_dates I isOrder_id (by decide +kernel) rfl
    (show (("y", -2) : String × Int) ∈ occ (.call "y" (-2) : Raw Rat) by decide +kernel) (Or.inl (by decide +kernel))⟩

end AcceptEx
end Pydsge
