import Verif.Projection.Lemmas3

/-! Lemmas on local namespaces with handlers of their own. -/

namespace Polog
open ProjSpec

variable {V : Type}

/-- A local tree shows the selected paths `S` and has the own handlers `L`. -/
structure LView (h : Heap V) (S : List (List Str)) (L : Dict Str V) (t : PNode V) : Prop where
  shows : ∀ ks i rest, t.front ks = some (i, rest) →
    ∃ q, q ∈ S ∧ ks = q ++ rest ∧ h.walk 0 q = some i
  all : ∀ p, p ∈ S → ∀ rest, (t.front (p ++ rest)).isSome
  root : t.ownVal [] = none
  single : ∀ name, t.ownVal [name] = Dict.get? name L
  deep : ∀ a b ks, t.ownVal (a :: b :: ks) = none

theorem ShowsPaths.lview {h : Heap V} {S : List (List Str)} {t : PNode V} (hi : ShowsPaths h [] S t) :
    LView h S [] t :=
  ⟨hi.shows, hi.all, hi.plain [], fun name => hi.plain [name], fun _ _ _ => hi.plain _⟩

theorem Dict.set_new_append {K W : Type} [DecidableEq K] {k : K} {v : W} {d : Dict K W}
    (hn : Dict.get? k d = none) : Dict.set k v d = d ++ [(k, v)] := by
  induction d with
  | nil => rfl
  | cons x r ih =>
    obtain ⟨k0, v0⟩ := x
    simp only [Dict.get?] at hn
    by_cases e : k0 = k
    · simp [e] at hn
    · simp only [e, ↓reduceIte] at hn
      simp [Dict.set, e, ih hn]

theorem LView.add {h : Heap V} {S : List (List Str)} {L : Dict Str V} {v0 : Option V}
    {f : List (Str × PNode V)} {name : Str} (v : V) (hi : LView h S L (.own v0 f))
    (hn : Dict.get? name f = none) :
    LView h S (Dict.set name v L) (.own v0 (Dict.set name (.own (some v) []) f)) := by
  have hfront : ∀ ks, (PNode.own v0 (Dict.set name (.own (some v) []) f)).front ks
      = (PNode.own v0 f).front ks := by
    intro ks
    cases ks with
    | nil => rfl
    | cons k ks =>
      simp only [PNode.front]
      rw [Dict.get?_set]
      by_cases e : name = k
      · subst e
        simp only [↓reduceIte, hn]
        cases ks <;> simp [PNode.front, Dict.get?]
      · rw [if_neg e]
  refine ⟨?_, ?_, hi.root, ?_, ?_⟩
  · intro ks i rest hk; rw [hfront] at hk; exact hi.shows ks i rest hk
  · intro p hp rest; rw [hfront]; exact hi.all p hp rest
  · intro k
    simp only [PNode.ownVal]
    rw [Dict.get?_set, Dict.get?_set]
    by_cases e : name = k
    · simp [e, PNode.ownVal]
    · rw [if_neg e, if_neg e]
      have := hi.single k
      simpa only [PNode.ownVal] using this
  · intro a b ks
    simp only [PNode.ownVal]
    rw [Dict.get?_set]
    by_cases e : name = a
    · simp [e, PNode.ownVal, Dict.get?]
    · rw [if_neg e]
      have := hi.deep a b ks
      simpa only [PNode.ownVal] using this

theorem addLocals_spec (isId : Str → Bool) (names : List Str) : ∀ {h h' : Heap V} {t t' : PNode V}
    {S : List (List Str)} {L : Dict Str V} {vs : List V}, LView h S L t → Dict.WF L →
    (∀ q ∈ S, q ≠ []) → (∀ n ∈ names, '.' ∉ n) →
    (∀ n ∈ Dict.keys L, [n] ∉ S ∧ isId n = true ∧ '.' ∉ n) →
    addLocals isId h t names vs = some (h', .ok t') →
    h' = h ∧ ∃ L', LView h S L' t' ∧ Dict.WF L' ∧ L'.map Prod.snd = L.map Prod.snd ++ vs ∧
      (∃ ns, Dict.keys L' = Dict.keys L ++ ns ∧ ns.Sublist names) ∧
      (∀ n ∈ Dict.keys L', [n] ∉ S ∧ isId n = true ∧ '.' ∉ n) := by
  induction names with
  | nil =>
    intro h h' t t' S L vs hi hw hS hnames hL heq
    cases vs with
    | nil =>
      simp only [addLocals, Option.some.injEq, Prod.mk.injEq, Except.ok.injEq] at heq
      obtain ⟨rfl, rfl⟩ := heq
      exact ⟨rfl, L, hi, hw, by simp, ⟨[], by simp, .slnil⟩, hL⟩
    | cons v vs => simp [addLocals] at heq
  | cons name names ih =>
    intro h h' t t' S L vs hi hw hS hnames hL heq
    cases vs with
    | nil =>
      simp only [addLocals, Option.some.injEq, Prod.mk.injEq, Except.ok.injEq] at heq
      obtain ⟨rfl, rfl⟩ := heq
      exact ⟨rfl, L, hi, hw, by simp, ⟨[], by simp, List.nil_sublist _⟩, hL⟩
    | cons v vs =>
      have hdot : '.' ∉ name := hnames name List.mem_cons_self
      have hnames' : ∀ n ∈ names, '.' ∉ n := fun n hn => hnames n (List.mem_cons_of_mem _ hn)
      have hsp : splitChar sep name = [name] := splitChar_of_not_mem sep name hdot
      have hne : name ≠ [sep] := by rintro rfl; exact hdot (by simp [sep])
      simp only [addLocals, convKeys_str, if_neg hne, hsp] at heq
      by_cases hv : ([name] : List Str).all isId = true
      · rw [if_pos hv] at heq
        dsimp only at heq
        cases hh : t.hasNode h [name] with
        | true =>
          rw [hh] at heq
          simp only [↓reduceIte] at heq
          obtain ⟨a, L', b1, b2, b3, ⟨ns, b4, b5⟩, b6⟩ := ih hi hw hS hnames' hL heq
          exact ⟨a, L', b1, b2, b3, ⟨ns, b4, b5.cons _⟩, b6⟩
        | false =>
          rw [hh] at heq
          simp only [Bool.false_eq_true, ↓reduceIte] at heq
          cases t with
          | shared i =>
            obtain ⟨q, hq, hk, _⟩ := hi.shows [] i [] rfl
            have : q = [] := by
              cases q with
              | nil => rfl
              | cons a b => simp at hk
            exact absurd this (hS q hq)
          | own v0 f =>
            have hnS : [name] ∉ S := by
              intro hmem
              have := hi.all [name] hmem []
              simp only [List.append_nil] at this
              cases hfr : (PNode.own v0 f).front [name] with
              | none => rw [hfr] at this; cases this
              | some x =>
                obtain ⟨i, rest⟩ := x
                obtain ⟨q, hq, hk, hlive⟩ := hi.shows _ i rest hfr
                have hrest : rest = [] := by
                  cases q with
                  | nil => exact absurd rfl (hS [] hq)
                  | cons a b =>
                    simp only [List.cons_append, List.cons.injEq, List.nil_eq, List.append_eq_nil_iff] at hk
                    exact hk.2.2
                subst hrest
                simp only [PNode.front] at hfr
                simp only [PNode.hasNode] at hh
                cases hc : Dict.get? name f with
                | none => rw [hc] at hfr; cases hfr
                | some t0 =>
                  rw [hc] at hfr hh
                  cases t0 with
                  | shared j => simp [PNode.hasNode, Heap.walk] at hh
                  | own a b => simp [PNode.hasNode] at hh
            have hfn : Dict.get? name f = none := by
              simp only [PNode.hasNode] at hh
              cases hc : Dict.get? name f with
              | none => rfl
              | some t0 =>
                rw [hc] at hh
                cases t0 with
                | shared j => simp [PNode.hasNode, Heap.walk] at hh
                | own a b => simp [PNode.hasNode] at hh
            have hLn : Dict.get? name L = none := by
              rw [← hi.single name]
              simp [PNode.ownVal, hfn]
            simp only [PNode.setVal, hfn, Option.getD_none] at heq
            have hLk := Dict.set_new_append (v := v) hLn
            obtain ⟨a, L', b1, b2, b3, ⟨ns, b4, b5⟩, b6⟩ := ih (hi.add v hfn) (Dict.WF_set hw) hS hnames'
              (by
                intro n hn
                rw [hLk] at hn
                simp only [Dict.keys, List.map_append, List.map_cons, List.map_nil, List.mem_append,
                  List.mem_singleton] at hn
                rcases hn with hn | rfl
                · exact hL n hn
                · exact ⟨hnS, by simpa using hv, hdot⟩) heq
            refine ⟨a, L', b1, b2, ?_, ⟨name :: ns, ?_, b5.cons_cons _⟩, b6⟩
            · rw [b3, hLk]; simp
            · rw [b4, hLk]; simp [Dict.keys]
      · rw [if_neg hv] at heq
        simp at heq

theorem Heap.localScope_spec (isId : Str → Bool) {h h' : Heap V} {paths : List Key}
    {handlers : List V} {names : List Str} {t : PNode V} (hg : h.Good)
    (hnames : ∀ n ∈ names, '.' ∉ n)
    (heq : h.localScope isId paths handlers names = some (h', .ok t)) :
    Grow h h' ∧ ∃ S L, LView h' S L t ∧ Dict.WF L ∧ L.map Prod.snd = handlers ∧
      (Dict.keys L).Sublist names ∧ (∀ n ∈ Dict.keys L, [n] ∉ S ∧ isId n = true ∧ '.' ∉ n) ∧
      (∀ q, q ∈ S ↔ ∃ s, Key.str s ∈ paths ∧ q = splitChar sep s) ∧
      (∀ p ∈ paths, ∃ s, p = .str s ∧ s ≠ [sep] ∧ (splitChar sep s).all isId = true) := by
  unfold Heap.localScope at heq
  obtain ⟨ga, gb⟩ := Heap.on_spec isId paths hg (ShowsPaths.fresh h) (by simp)
  cases hsel : h.select isId paths with
  | mk h1 r =>
    have hsel' : h.on isId (.own none []) paths = (h1, r) := hsel
    rw [hsel'] at ga gb
    rw [hsel] at heq
    cases r with
    | error e => simp at heq
    | ok t1 =>
      obtain ⟨⟨S, hi, hS⟩, hpaths⟩ := gb t1 rfl
      have hS' : ∀ q ∈ S, q ≠ [] := by
        intro q hq
        rcases (hS q).1 hq with h0 | ⟨s, _, rfl⟩
        · cases h0
        · exact splitChar_ne_nil _ _
      obtain ⟨rfl, L, b1, b2, b3, ⟨ns, b4, b5⟩, b6⟩ :=
        addLocals_spec isId names hi.lview Dict.WF_nil hS' hnames (by simp [Dict.keys]) heq
      refine ⟨ga.grow, S, L, b1, b2, by simpa using b3, ?_, b6, ?_, hpaths⟩
      · rw [b4]; simpa [Dict.keys] using b5
      · intro q; simpa using hS q

end Polog
