import Verif.Model.Cov
import Mathlib.Data.List.Basic
import Mathlib.Data.List.Nodup
import Mathlib.Data.Rat.Defs
import Mathlib.Algebra.Field.Rat

/-!
# C41: covariances and measurement errors
-/

set_option autoImplicit false
set_option linter.unusedSectionVars false
set_option linter.unusedSimpArgs false

namespace Pydsge

namespace Spec

/-- Blanks and other white space. -/
def Blank (c : Char) : Prop := c = ' ' ∨ c = '\t' ∨ c = '\n' ∨ c = '\r' ∨ c = Char.ofNat 11 ∨ c = Char.ofNat 12

/-- Names contain neither commas nor white space. -/
def IsName (n : String) : Prop := n.toList ≠ [] ∧ ∀ c ∈ n.toList, c ≠ ',' ∧ ¬ Blank c

instance (c : Char) : Decidable (Blank c) := by unfold Blank; infer_instance
instance (n : String) : Decidable (IsName n) := by unfold IsName; infer_instance

/-- The key of an entry that stands for the pair of `a` and `b`: `a,b` with white space around the names, or just the name if both are equal. -/
def Denotes (key a b : String) : Prop :=
  IsName a ∧ IsName b ∧ (key = a ∧ b = a ∨ ∃ p q r s : List Char, (∀ c ∈ p ++ q ++ r ++ s, Blank c) ∧
    key.toList = p ++ a.toList ++ q ++ [','] ++ r ++ b.toList ++ s)

end Spec

namespace Cov
open Spec
variable {V : Type}

theorem isBlank_iff (c : Char) : isBlank c = true ↔ Blank c := by simp [isBlank, Blank]

theorem strip_pad (p a q : List Char) (hp : ∀ c ∈ p, Blank c) (ha : a ≠ []) (ha' : ∀ c ∈ a, ¬ Blank c) (hq : ∀ c ∈ q, Blank c) :
    strip (p ++ a ++ q) = a := by
  have key : ∀ p a q : List Char, (∀ c ∈ p, Blank c) → a ≠ [] → (∀ c ∈ a, ¬ Blank c) → (p ++ (a ++ q)).dropWhile isBlank = a ++ q := by
    intro p a q hp ha ha'
    rw [List.dropWhile_append_of_pos (fun c hc => (isBlank_iff c).2 (hp c hc))]
    obtain ⟨x, r, rfl⟩ := List.exists_cons_of_ne_nil ha
    rw [List.cons_append, List.dropWhile_cons_of_neg]
    rw [isBlank_iff]; exact ha' x List.mem_cons_self
  unfold strip
  rw [List.append_assoc, key p a q hp ha ha', List.reverse_append]
  have h2 := key q.reverse a.reverse [] (fun c hc => hq c (List.mem_reverse.1 hc)) (by simpa using ha) (fun c hc => ha' c (List.mem_reverse.1 hc))
  rw [List.append_nil] at h2
  rw [h2, List.reverse_reverse]

theorem not_comma_of_blank {c : Char} (h : Blank c) : c ≠ ',' := by
  rintro rfl
  revert h
  decide

/-- The pair of names that the code reads off a key. -/
theorem split_denotes {key a b : String} (h : Denotes key a b) : pairOf (splitKey key) = [a, b] := by
  obtain ⟨ha, hb, h⟩ := h
  have hs : ∀ (n : String) (p q : List Char), IsName n → (∀ c ∈ p, Blank c) → (∀ c ∈ q, Blank c) →
      String.ofList (strip (p ++ n.toList ++ q)) = n ∧ ',' ∉ p ++ n.toList ++ q := by
    intro n p q hn hp hq
    constructor
    · rw [strip_pad p n.toList q hp hn.1 (fun c hc => (hn.2 c hc).2) hq]
      exact String.ofList_toList
    · simp only [List.mem_append, not_or]
      exact ⟨⟨fun h => not_comma_of_blank (hp _ h) rfl, fun h => (hn.2 _ h).1 rfl⟩, fun h => not_comma_of_blank (hq _ h) rfl⟩
  rcases h with ⟨rfl, rfl⟩ | ⟨p, q, r, s, hpad, hk⟩
  · obtain ⟨h1, h2⟩ := hs b [] [] ha (by simp) (by simp)
    simp only [List.nil_append, List.append_nil] at h1 h2
    unfold splitKey
    rw [List.splitOn_eq_singleton h2]
    simp [h1, pairOf]
  · simp only [List.mem_append] at hpad
    obtain ⟨h1, h2⟩ := hs a p q ha (fun c hc => hpad c (by simp [hc])) (fun c hc => hpad c (by simp [hc]))
    obtain ⟨h3, h4⟩ := hs b r s hb (fun c hc => hpad c (by simp [hc])) (fun c hc => hpad c (by simp [hc]))
    unfold splitKey
    have : key.toList = (p ++ a.toList ++ q) ++ ',' :: (r ++ b.toList ++ s) := by rw [hk]; simp
    rw [this, List.splitOn_append_cons_self_of_not_mem h2, List.splitOn_eq_singleton h4]
    simp only [List.map_cons, List.map_nil, h1, h3, pairOf]

theorem pyIndex_ok {l : List String} {n : String} {i : Nat} (h : pyIndex l n = .ok i) : l[i]? = some n := by
  unfold pyIndex at h
  cases hf : l.findIdx? (fun m => decide (m = n)) with
  | none => rw [hf] at h; cases h
  | some j =>
    rw [hf] at h
    simp only [Except.ok.injEq] at h
    subst h
    obtain ⟨hlt, hp, _⟩ := List.findIdx?_eq_some_iff_getElem.1 hf
    rw [List.getElem?_eq_getElem hlt]
    simpa using hp

theorem pyIndex_mem {l : List String} {n : String} (h : n ∈ l) : ∃ i, pyIndex l n = .ok i ∧ i < l.length := by
  unfold pyIndex
  cases hf : l.findIdx? (fun m => decide (m = n)) with
  | none =>
    have := List.findIdx?_eq_none_iff.1 hf n h
    simp at this
  | some j =>
    obtain ⟨hlt, _, _⟩ := List.findIdx?_eq_some_iff_getElem.1 hf
    exact ⟨j, rfl, hlt⟩

/-- What one entry does. -/
theorem setEntry_ok {n : Nat} {order : List String} {M M' : Nat → Nat → V} {e : Entry V} (h : setEntry n order M e = .ok M') {a b : String}
    (hd : Denotes e.1 a b) : ∃ i j v, order[i]? = some a ∧ order[j]? = some b ∧ i < n ∧ j < n ∧ e.2 = .ok v ∧
      ∀ x y, M' x y = if x = i ∧ y = j ∨ x = j ∧ y = i then v else M x y := by
  unfold setEntry at h
  rw [split_denotes hd] at h
  simp only at h
  cases hi : pyIndex order a with
  | error e => rw [hi] at h; cases h
  | ok i =>
    rw [hi] at h; simp only at h
    cases hj : pyIndex order b with
    | error e => rw [hj] at h; cases h
    | ok j =>
      rw [hj] at h; simp only at h
      cases hv : e.2 with
      | error e => rw [hv] at h; cases h
      | ok v =>
        rw [hv] at h
        simp only [setAt] at h
        by_cases hij : i < n ∧ j < n
        · simp only [if_pos hij] at h
          rw [if_pos ⟨hij.2, hij.1⟩] at h
          simp only [Except.ok.injEq] at h
          subst h
          refine ⟨i, j, v, pyIndex_ok hi, pyIndex_ok hj, hij.1, hij.2, rfl, ?_⟩
          intro x y
          simp only [and_self, if_true]
          by_cases h1 : x = j ∧ y = i
          · rw [if_pos h1, if_pos (.inr h1)]
          · rw [if_neg h1]
            by_cases h2 : x = i ∧ y = j
            · rw [if_pos h2, if_pos (.inl h2)]
            · rw [if_neg h2, if_neg (by tauto)]
        · rw [if_neg hij] at h
          cases h

theorem setEntry_accept {n : Nat} {order : List String} (M : Nat → Nat → V) {e : Entry V} {a b : String} (hn : order.length ≤ n)
    (hd : Denotes e.1 a b) (ha : a ∈ order) (hb : b ∈ order) {v : V} (hv : e.2 = .ok v) : ∃ M', setEntry n order M e = .ok M' := by
  obtain ⟨i, hi, hi'⟩ := pyIndex_mem ha
  obtain ⟨j, hj, hj'⟩ := pyIndex_mem hb
  unfold setEntry
  rw [split_denotes hd]
  simp only [hi, hj, hv, setAt]
  rw [if_pos ⟨by omega, by omega⟩]
  simp only
  rw [if_pos ⟨by omega, by omega⟩]
  exact ⟨_, rfl⟩

theorem setEntry_symm {n : Nat} {order : List String} {M M' : Nat → Nat → V} {e : Entry V} (h : setEntry n order M e = .ok M')
    (hM : ∀ i j, M i j = M j i) (i j : Nat) : M' i j = M' j i := by
  unfold setEntry at h
  split at h
  · split at h
    · cases h
    · split at h
      · cases h
      · rename_i i0 _ _ j0 _
        split at h
        · cases h
        · rename_i v _
          unfold setAt at h
          by_cases hij : i0 < n ∧ j0 < n
          · simp only [if_pos hij] at h
            rw [if_pos ⟨hij.2, hij.1⟩] at h
            simp only [Except.ok.injEq, and_self, if_true] at h
            subst h
            simp only
            by_cases h1 : i = j0 ∧ j = i0
            · by_cases h2 : j = j0 ∧ i = i0
              · rw [if_pos h1, if_pos h2]
              · rw [if_pos h1, if_neg h2, if_pos ⟨h1.2, h1.1⟩]
            · by_cases h2 : j = j0 ∧ i = i0
              · rw [if_neg h1, if_pos h2, if_pos ⟨h2.2, h2.1⟩]
              · rw [if_neg h1, if_neg h2, if_neg (fun h => h2 ⟨h.2, h.1⟩), if_neg (fun h => h1 ⟨h.2, h.1⟩), hM i j]
          · rw [if_neg hij] at h; cases h
  · simp only [Except.ok.injEq] at h
    subst h
    exact hM i j

theorem fill_append {n : Nat} {order : List String} (l l' : List (Entry V)) : ∀ M M' : Nat → Nat → V, fill n order (l ++ l') M = .ok M' →
    ∃ M1, fill n order l M = .ok M1 ∧ fill n order l' M1 = .ok M' := by
  induction l with
  | nil => intro M M' h; exact ⟨M, rfl, h⟩
  | cons e r ih =>
    intro M M' h
    simp only [List.cons_append, fill] at h ⊢
    cases he : setEntry n order M e with
    | error err => rw [he] at h; cases h
    | ok M1 => rw [he] at h; exact ih M1 M' h

theorem fill_symm {n : Nat} {order : List String} (l : List (Entry V)) : ∀ M M' : Nat → Nat → V, fill n order l M = .ok M' →
    (∀ i j, M i j = M j i) → ∀ i j, M' i j = M' j i := by
  induction l with
  | nil => intro M M' h hM; simp only [fill, Except.ok.injEq] at h; subst h; exact hM
  | cons e r ih =>
    intro M M' h hM
    simp only [fill] at h
    cases he : setEntry n order M e with
    | error err => rw [he] at h; cases h
    | ok M1 => rw [he] at h; exact ih M1 M' h (setEntry_symm he hM)

theorem fill_accept {n : Nat} {order : List String} (hn : order.length ≤ n) (l : List (Entry V))
    (hl : ∀ e ∈ l, ∃ a b v, Denotes e.1 a b ∧ a ∈ order ∧ b ∈ order ∧ e.2 = .ok v) : ∀ M : Nat → Nat → V, ∃ M', fill n order l M = .ok M' := by
  induction l with
  | nil => intro M; exact ⟨M, rfl⟩
  | cons e r ih =>
    intro M
    obtain ⟨a, b, v, h1, h2, h3, h4⟩ := hl e List.mem_cons_self
    obtain ⟨M1, hM1⟩ := setEntry_accept M hn h1 h2 h3 h4
    obtain ⟨M', hM'⟩ := ih (fun e he => hl e (List.mem_cons_of_mem _ he)) M1
    exact ⟨M', by simp only [fill, hM1, hM']⟩

theorem fill_other {n : Nat} {order : List String} (l : List (Entry V)) (hd : ∀ e ∈ l, ∃ a b, Denotes e.1 a b) (x y : Nat)
    (hxy : ∀ e ∈ l, ∀ a b, order[x]? = some a → order[y]? = some b → ¬ Denotes e.1 a b ∧ ¬ Denotes e.1 b a) :
    ∀ M M' : Nat → Nat → V, fill n order l M = .ok M' → M' x y = M x y := by
  induction l with
  | nil => intro M M' h; simp only [fill, Except.ok.injEq] at h; subst h; rfl
  | cons e r ih =>
    intro M M' h
    simp only [fill] at h
    cases he : setEntry n order M e with
    | error err => rw [he] at h; cases h
    | ok M1 =>
      rw [he] at h
      rw [ih (fun e he => hd e (List.mem_cons_of_mem _ he)) (fun e he => hxy e (List.mem_cons_of_mem _ he)) M1 M' h]
      obtain ⟨a, b, hab⟩ := hd e List.mem_cons_self
      obtain ⟨i, j, v, h1, h2, _, _, _, h6⟩ := setEntry_ok he hab
      rw [h6 x y, if_neg]
      rintro (⟨rfl, rfl⟩ | ⟨rfl, rfl⟩)
      · exact (hxy e List.mem_cons_self a b h1 h2).1 hab
      · exact (hxy e List.mem_cons_self b a h2 h1).2 hab

/-- Two entries are for different pairs. -/
def Apart (e e' : Entry V) : Prop := ∀ a b, Denotes e.1 a b → ¬ Denotes e'.1 a b ∧ ¬ Denotes e'.1 b a

theorem fill_value {n : Nat} {order : List String} (l : List (Entry V)) (hd : ∀ e ∈ l, ∃ a b, Denotes e.1 a b) (hap : l.Pairwise Apart)
    (hord : order.Nodup) (M M' : Nat → Nat → V) (h : fill n order l M = .ok M') (e : Entry V) (he : e ∈ l) (a b : String) (hab : Denotes e.1 a b)
    (i j : Nat) (hi : order[i]? = some a) (hj : order[j]? = some b) : e.2 = .ok (M' i j) := by
  obtain ⟨l1, l2, rfl⟩ := List.append_of_mem he
  obtain ⟨M1, _, h2⟩ := fill_append l1 (e :: l2) M M' h
  simp only [fill] at h2
  cases hs : setEntry n order M1 e with
  | error err => rw [hs] at h2; cases h2
  | ok M2 =>
    rw [hs] at h2
    obtain ⟨i', j', v, g1, g2, _, _, g5, g6⟩ := setEntry_ok hs hab
    have hinj : ∀ {p q : Nat} {n : String}, order[p]? = some n → order[q]? = some n → p = q := by
      intro p q m hp hq
      obtain ⟨hp1, _⟩ := List.getElem?_eq_some_iff.1 hp
      exact (List.getElem?_inj hp1 hord).1 (hp.trans hq.symm)
    have ei := hinj hi g1
    have ej := hinj hj g2
    subst ei ej
    rw [fill_other l2 (fun e he => hd e (by simp [he])) i j ?_ M2 M' h2, g6 i j, if_pos (.inl ⟨rfl, rfl⟩), g5]
    intro e' he' a' b' ha' hb'
    rw [hi] at ha'; rw [hj] at hb'
    injection ha' with ha'; injection hb' with hb'
    subst ha' hb'
    have := (List.pairwise_append.1 hap).2.1
    exact (List.rel_of_pairwise_cons this he') a b hab

end Cov

open Cov Spec Parser
variable {V : Type} [Zero V]

/-- **C41**, measurement errors (values given as text): the matrix is symmetric, has every declared value at the declared position (also off the
diagonal) and is zero elsewhere; it is built whenever the declared names and values are fine. -/
theorem C41_measurement_errors_partial (nobs : Nat) (order : List String) (hord : order.Nodup) (es : List (String × Except PyErr V))
    (hd : ∀ e ∈ es, ∃ a b, Denotes e.1 a b) (hap : es.Pairwise Apart) :
    (∀ H, getHH nobs (some order) (some (es.map (fun e => (e.1, YVal.text e.2)))) = .ok H →
      (∀ i j, H i j = H j i) ∧
      (∀ e ∈ es, ∀ a b i j, Denotes e.1 a b → order[i]? = some a → order[j]? = some b → e.2 = .ok (H i j)) ∧
      (∀ i j, (∀ e ∈ es, ∀ a b, order[i]? = some a → order[j]? = some b → ¬ Denotes e.1 a b ∧ ¬ Denotes e.1 b a) → H i j = 0)) ∧
    (order.length ≤ nobs → (∀ e ∈ es, ∀ a b, Denotes e.1 a b → a ∈ order ∧ b ∈ order) → (∀ e ∈ es, ∃ v, e.2 = .ok v) →
      ∃ H, getHH nobs (some order) (some (es.map (fun e => (e.1, YVal.text e.2)))) = .ok H) := by
  have hmap : (es.map (fun e => (e.1, YVal.text e.2))).map (fun e => (e.1, e.2.evalRaw)) = es := by
    rw [List.map_map]
    conv_rhs => rw [← List.map_id es]
    exact List.map_congr_left fun e _ => rfl
  simp only [getHH, hmap]
  refine ⟨fun H h => ⟨fill_symm es _ H h (fun _ _ => rfl), ?_, ?_⟩, ?_⟩
  · exact fun e he a b i j hab hi hj => fill_value es hd hap hord _ H h e he a b hab i j hi hj
  · exact fun i j hij => fill_other es hd i j hij _ H h
  · intro hn hmem hv
    refine fill_accept hn es (fun e he => ?_) _
    obtain ⟨a, b, hab⟩ := hd e he
    obtain ⟨v, hv⟩ := hv e he
    exact ⟨a, b, v, hab, (hmem e he a b hab).1, (hmem e he a b hab).2, hv⟩

theorem denotes_self {n : String} (h : IsName n) : Denotes n n n := ⟨h, h, .inl ⟨rfl, rfl⟩⟩

theorem denotes_name {n a b : String} (hn : IsName n) (h : Denotes n a b) : a = n ∧ b = n := by
  have h1 := split_denotes h
  rw [split_denotes (denotes_self hn)] at h1
  simp only [List.cons.injEq, and_true] at h1
  exact ⟨h1.1.symm, h1.2.symm⟩

variable {K : Type}

theorem cov_names (ord : List (TSym × TSym) → List (TSym × TSym)) (vars shocks : List String) (eqs : List (Eqn K)) (st : PState K)
    (hplain : ∀ e ∈ eqs, ∀ s ∈ e.syms, s.kind = .shock → IsName s.name) (h : parseEqs ord vars shocks eqs = .ok st) :
    ∀ n ∈ shocks, IsName n := by
  intro n hn
  unfold parseEqs at h
  split at h
  · cases h
  · cases ha : allOccur .shock shocks eqs with
    | error e => rw [ha] at h; cases h
    | ok u =>
      unfold allOccur at ha
      split at ha
      · rename_i hall
        have := List.all_eq_true.1 hall n hn
        simp only [Bool.not_eq_true', List.isEmpty_eq_false_iff] at this
        unfold dates at this
        obtain ⟨d, hd⟩ := List.exists_mem_of_ne_nil _ this
        obtain ⟨s, hs, _⟩ := List.mem_map.1 hd
        simp only [List.mem_filter, List.mem_flatMap, decide_eq_true_eq] at hs
        obtain ⟨⟨e, he, hse⟩, hk, rfl⟩ := hs
        exact hplain e he s hse hk
      · cases ha

/-- **C41**, covariances, what holds: a parsed model has the declared value of every shock on the diagonal and zeros elsewhere. -/
theorem C41_covariance_partial (ord : List (TSym × TSym) → List (TSym × TSym)) (vars : List String) (eqs : List (Eqn K))
    (hplain : ∀ e ∈ eqs, ∀ s ∈ e.syms, s.kind = .shock → IsName s.name)
    (cov : List (String × YVal V)) (hnd : (cov.map Prod.fst).Nodup) (st : PState K) (Q : Nat → Nat → V)
    (h : parseCov ord vars eqs cov = .ok (st, Q)) :
    (∀ i j, Q i j = Q j i) ∧ (∀ (i : Nat) (n : String) (y : YVal V), cov[i]? = some (n, y) → y.evalStr = .ok (Q i i)) ∧ (∀ i j, i ≠ j → Q i j = 0) := by
  unfold parseCov at h
  cases hp : parseEqs ord vars (cov.map Prod.fst) eqs with
  | error e => rw [hp] at h; cases h
  | ok st' =>
    rw [hp] at h; simp only at h
    cases hq : getQQ cov with
    | error e => rw [hq] at h; cases h
    | ok Q' =>
      rw [hq] at h
      simp only [Except.ok.injEq, Prod.mk.injEq] at h
      obtain ⟨rfl, rfl⟩ := h
      have hname := cov_names ord vars _ eqs st' hplain hp
      unfold getQQ at hq
      set es := cov.map (fun e => (e.1, e.2.evalStr)) with hes
      have hkey : es.map Prod.fst = cov.map Prod.fst := by rw [hes, List.map_map]; rfl
      have hes_name : ∀ e ∈ es, IsName e.1 := fun e he => hname e.1 (hkey ▸ List.mem_map_of_mem he)
      have hd : ∀ e ∈ es, ∃ a b, Denotes e.1 a b := fun e he => ⟨_, _, denotes_self (hes_name e he)⟩
      have hap : es.Pairwise Apart := by
        have h1 : (es.map Prod.fst).Pairwise (· ≠ ·) := by rw [hkey]; exact hnd
        rw [List.pairwise_map] at h1
        refine h1.imp_of_mem (fun {e e'} he he' hne a b hab => ?_)
        have e1 := denotes_name (hes_name e he) hab
        obtain ⟨rfl, rfl⟩ := e1
        exact ⟨fun h => hne (denotes_name (hes_name e' he') h).1, fun h => hne (denotes_name (hes_name e' he') h).1⟩
      refine ⟨fill_symm es _ Q' hq (fun _ _ => rfl), ?_, ?_⟩
      · intro i n y hi
        have he : (n, y.evalStr) ∈ es := by
          rw [hes]; exact List.mem_map.2 ⟨(n, y), List.mem_of_getElem? hi, rfl⟩
        have ho : (cov.map Prod.fst)[i]? = some n := by rw [List.getElem?_map, hi]; rfl
        exact fill_value es hd hap hnd _ Q' hq (n, y.evalStr) he n n (denotes_self (hes_name _ he)) i i ho ho
      · intro i j hij
        refine fill_other es hd i j ?_ _ Q' hq
        intro e he a b ha hb
        have hab : a ≠ b := by
          rintro rfl
          obtain ⟨hl, _⟩ := List.getElem?_eq_some_iff.1 ha
          exact hij ((List.getElem?_inj hl hnd).1 (ha.trans hb.symm))
        constructor
        · intro h; have := denotes_name (hes_name e he) h; exact hab (this.1.trans this.2.symm)
        · intro h; have := denotes_name (hes_name e he) h; exact hab (this.2.trans this.1.symm)

/-- **C41** refuted in general: no model with an off-diagonal covariance is accepted. -/
theorem C41_offdiagonal_rejected (ord : List (TSym × TSym) → List (TSym × TSym)) (vars : List String) (eqs : List (Eqn K))
    (hplain : ∀ e ∈ eqs, ∀ s ∈ e.syms, s.kind = .shock → IsName s.name)
    (cov : List (String × YVal V)) (a b : String) (hab : a ≠ b) (k : String) (hk : Denotes k a b) (hmem : k ∈ cov.map Prod.fst)
    (r : PState K × (Nat → Nat → V)) : parseCov ord vars eqs cov ≠ .ok r := by
  intro h
  unfold parseCov at h
  cases hp : parseEqs ord vars (cov.map Prod.fst) eqs with
  | error e => rw [hp] at h; cases h
  | ok st' =>
    have := denotes_name (cov_names ord vars _ eqs st' hplain hp k hmem) hk
    exact hab (this.1.trans this.2.symm)

namespace CovEx

/-- `y = e + u` for the variables `x`, `y` and the shocks `e`, `u` -/
def eqs : List (Eqn Rat) := [⟨.sym (vsym "y"), .add (.sym (vsym "x")) (.add (.sym (ssym "e")) (.sym (ssym "u")))⟩]

def cov : List (String × YVal Rat) := [("e", .num 2), ("u", .num 3)]

theorem plain : ∀ e ∈ eqs, ∀ s ∈ e.syms, s.kind = .shock → IsName s.name := by
  decide +kernel

/-- The hypotheses of `C41_covariance_partial` can be met. -/
example : (parseCov id ["x", "y"] eqs cov).toOption.isSome = true ∧ (cov.map Prod.fst).Nodup := by
  constructor
  · decide +kernel
  · decide

theorem denotes_eu : Denotes "e, u" "e" "u" := by
  refine ⟨by decide +kernel, by decide +kernel, .inr ⟨[], [], [' '], [], by decide +kernel, by decide +kernel⟩⟩

theorem denotes_e : Denotes "e" "e" "e" := denotes_self (by decide +kernel)

/-- The hypotheses of `C41_measurement_errors_partial` can be met, with an entry off the diagonal. -/
example : ["e", "u"].Nodup ∧ (∀ e ∈ [("e, u", (.ok 1 : Except PyErr Rat)), ("e", .ok 4)], ∃ a b, Denotes e.1 a b) ∧
    [("e, u", (.ok 1 : Except PyErr Rat)), ("e", .ok 4)].Pairwise Apart ∧
    (getHH 2 (some ["e", "u"]) (some [("e, u", YVal.text (.ok (1 : Rat))), ("e", .text (.ok 4))])).toOption.map (fun H => (H 0 0, H 0 1, H 1 0, H 1 1)) =
      some (4, 1, 1, 0) := by
  refine ⟨by decide, ?_, ?_, by decide +kernel⟩
  · intro e he
    simp only [List.mem_cons, List.not_mem_nil, or_false] at he
    rcases he with rfl | rfl
    · exact ⟨_, _, denotes_eu⟩
    · exact ⟨_, _, denotes_e⟩
  · simp only [List.pairwise_cons, List.mem_singleton, forall_eq, List.not_mem_nil, false_imp_iff, implies_true, List.Pairwise.nil, and_true]
    intro a b hab
    have h1 := split_denotes hab
    rw [split_denotes denotes_eu] at h1
    simp only [List.cons.injEq, and_true] at h1
    obtain ⟨rfl, rfl⟩ := h1
    constructor <;> intro h <;> have := denotes_name denotes_e.1 h <;> simp at this

end CovEx

/-- **C41** refuted, covariances: the section with `e: 2`, `u: 3` and `e,u: 1` is rejected, though the one without the last entry is accepted. -/
theorem C41_covariance_refuted : ∃ (vars : List String) (eqs : List (Eqn Rat)) (cov : List (String × YVal Rat)) (k a b : String),
    Denotes k a b ∧ a ∈ cov.map Prod.fst ∧ b ∈ cov.map Prod.fst ∧ (parseCov id vars eqs cov).toOption.isSome = true ∧
    ∀ r, parseCov id vars eqs (cov ++ [(k, .num 1)]) ≠ .ok r :=
  ⟨["x", "y"], CovEx.eqs, CovEx.cov, "e, u", "e", "u", CovEx.denotes_eu, by decide, by decide, by decide +kernel,
    C41_offdiagonal_rejected _ _ _ CovEx.plain _ "e" "u" (by decide) "e, u" CovEx.denotes_eu (by decide)⟩

/-- **C41** refuted, measurement errors: numbers are not accepted as values. -/
theorem C41_measurement_errors_refuted (nobs : Nat) (n : String) (hn : IsName n) (v : Rat) :
    getHH nobs (some [n]) (some [(n, .num v)]) = .error .typeError := by
  simp only [getHH, List.map_cons, List.map_nil, fill, setEntry, split_denotes (denotes_self hn), YVal.evalRaw]
  have : pyIndex [n] n = .ok 0 := by simp [pyIndex, List.findIdx?_cons]
  rw [this]

end Pydsge
