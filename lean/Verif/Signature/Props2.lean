import Verif.Signature.Props
import Mathlib.Data.List.Perm.Subperm

/-! C49, general templates: what `SignatureMatcher(...)` matches. -/

namespace Polog
open SigSpec

theorem mem_eraseDups_str (l : List Str) (x : Str) : x ∈ l.eraseDups ↔ x ∈ l := List.mem_eraseDups

theorem star_iff (b : Prop) [Decidable b] (ps : List Param) (k : PKind) :
    decide b = ((ps.filter fun p => p.kind = k).length != 0) ↔ (b ↔ ∃ p ∈ ps, p.kind = k) := by
  have : ((ps.filter fun p => p.kind = k).length != 0) = true ↔ ∃ p ∈ ps, p.kind = k := by
    rw [bne_iff_ne, ne_eq, List.length_eq_zero_iff, List.filter_eq_nil_iff]
    simp
  by_cases hb : b
  · rw [decide_eq_true hb]
    simp only [hb, true_iff]
    rw [← this]
    exact eq_comm
  · rw [decide_eq_false hb]
    simp only [hb, false_iff]
    rw [← this]
    cases ((ps.filter fun p => p.kind = k).length != 0) <;> simp

/-- **C49**: a template without double names matches exactly the functions of its shape. -/
theorem C49_template_matches_exactly {isId : Str → Bool} {args : List Str} (ha : TemplateOk isId args)
    {ps : List Param} (hv : Valid ps) :
    (Matcher.init isId args).matches (.sig ps) = .ok true ↔ HasShape isId args ps := by
  have hnd : ((ps.filter fun p => isKey p && p.hasDefault).map Param.name).Nodup :=
    (List.Sublist.map Param.name List.filter_sublist).nodup hv.names
  have hmem : ∀ name, name ∈ (ps.filter fun p => isKey p && p.hasDefault).map Param.name ↔
      ∃ p ∈ ps, p.name = name ∧ isKey p = true ∧ p.hasDefault = true := by
    intro name
    rw [List.mem_map]
    constructor
    · rintro ⟨p, hp, e⟩
      rw [List.mem_filter, Bool.and_eq_true] at hp
      exact ⟨p, hp.1, e, hp.2⟩
    · rintro ⟨p, hp, e, h⟩
      exact ⟨p, List.mem_filter.2 ⟨hp, Bool.and_eq_true _ _ ▸ h⟩, e⟩
  have hmem2 : ∀ name, name ∈ args.filter isId ↔ isId name = true ∧ name ∈ args := by
    intro name; rw [List.mem_filter]; exact and_comm
  have hdots : (args.filter fun x => x = ".".toList).length = args.count ".".toList := by
    rw [List.count_eq_length_filter]
    congr 2
    funext x
    rw [Bool.eq_iff_iff, decide_eq_true_iff, beq_iff_eq]
  have hlen : (ps.filter fun p => isKey p && p.hasDefault).length =
      ((ps.filter fun p => isKey p && p.hasDefault).map Param.name).length := (List.length_map _).symm
  unfold Matcher.matches Matcher.proveIsArgs Matcher.proveIsKwargs Matcher.proveNumberPositional
    Matcher.proveNumberNamed Matcher.proveNames Matcher.init
  dsimp only
  simp only [isPositional_eq, isNamed_eq]
  rw [hlen]
  simp only [Except.ok.injEq, Bool.and_eq_true, List.contains_eq_mem, star_iff, beq_iff_eq, hdots,
    List.all_eq_true, mem_eraseDups_str, decide_eq_true_eq]
  generalize (ps.filter fun p => isKey p && p.hasDefault).map Param.name = ns at *
  constructor
  · rintro ⟨⟨⟨⟨h1, h2⟩, h3⟩, h4⟩, h5⟩
    refine ⟨h3.symm, fun name => ?_, h1, h2⟩
    rw [← hmem, ← hmem2]
    have hs : (args.filter isId).Subperm ns := List.subperm_of_subset ha.names h5
    exact (hs.perm_of_length_le (by omega)).mem_iff
  · intro h
    refine ⟨⟨⟨⟨h.star, h.starStar⟩, h.dots.symm⟩, ?_⟩, ?_⟩
    · have hp : (args.filter isId).Perm ns := by
        rw [List.perm_ext_iff_of_nodup ha.names hnd]
        intro name
        rw [hmem2, hmem]
        exact h.named name
      exact hp.length_eq
    · intro name hn
      rw [hmem]
      exact (h.named name).1 ((hmem2 name).1 hn)

/-- `def func(a, b, c=5, *d, **e)`, the example of the documentation. -/
def exDoc : List Param :=
  [⟨.positionalOrKeyword, false, "a".toList⟩, ⟨.positionalOrKeyword, false, "b".toList⟩,
   ⟨.positionalOrKeyword, true, "c".toList⟩, ⟨.varPositional, false, "d".toList⟩,
   ⟨.varKeyword, false, "e".toList⟩]

/-- One-letter identifiers only. -/
def exIsId (s : Str) : Bool := s = "a".toList || s = "b".toList || s = "c".toList

example : Valid exDoc ∧ TemplateOk exIsId [".".toList, ".".toList, "c".toList, "*".toList, "**".toList] ∧
    (Matcher.init exIsId [".".toList, ".".toList, "c".toList, "*".toList, "**".toList]).matches (.sig exDoc)
      = .ok true :=
  ⟨⟨by decide, by decide, by decide, by decide, by decide⟩, ⟨by decide, by decide⟩, by decide⟩

/-- **C49** fails for templates with a double name: `SignatureMatcher('a', 'a')` matches
`def f(a=1, b=2)`. -/
theorem C49_double_name_template_fails :
    (Matcher.init exIsId ["a".toList, "a".toList]).matches
      (.sig [⟨.positionalOrKeyword, true, "a".toList⟩, ⟨.positionalOrKeyword, true, "b".toList⟩])
      = .ok true := by decide

/-- **C49**: the empty template (used for functions giving a time limit) matches only functions that
can be called without arguments, unless they need a keyword-only argument. -/
theorem C49_empty_template_callable_partial {isId : Str → Bool} {ps : List Param} (hv : Valid ps)
    (hid : isId ".".toList = false ∧ isId "*".toList = false ∧ isId "**".toList = false)
    (h : (Matcher.init isId []).matches (.sig ps) = .ok true)
    (hkw : ∀ p ∈ ps, p.kind = .keywordOnly → p.hasDefault = true) : NoArgs ps := by
  have hs := (C49_template_matches_exactly (args := []) ⟨hid, List.nodup_nil⟩ hv).1 h
  refine ⟨.inl (Nat.zero_le _), fun k hk => (nomatch hk), ?_, fun p hp hk => .inl (hkw p hp hk)⟩
  intro p hp
  left
  have h0 : (ps.filter fun p => isPos p && !p.hasDefault) = [] :=
    List.eq_nil_of_length_eq_zero hs.dots
  have hp' := List.mem_filter.1 (List.mem_of_mem_drop hp)
  have := List.filter_eq_nil_iff.1 h0 p hp'.1
  cases hd : p.hasDefault with
  | true => rfl
  | false => exact absurd (by rw [hp'.2, hd]; rfl) this

-- `lambda: settings[...]` has no parameters
example : (Matcher.init exIsId []).matches (.sig []) = .ok true := by decide

end Polog
