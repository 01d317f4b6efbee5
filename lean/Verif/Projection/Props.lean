import Verif.Projection.Lemmas4

/-!
C05: a local handler namespace, made by `config.get_handlers(paths)` or `@log(handlers=[...])`, as a
view of the selected branches of the global namespace.

In all theorems the global namespace starts empty and has an arbitrary history `before`, then the local
namespace is made, then an arbitrary history `after` of registrations, deletions and selections for
other local namespaces follows.  `config.get_handlers(*paths)` is the case `handlers = []`.
Cases that meet the hypotheses are at the end of `Projection/Props2.lean`.
-/

namespace Polog
open ProjSpec

variable {V : Type}

/-- `config.get_handlers(*paths)` is the local scope without own handlers. -/
theorem Heap.localScope_nil (isId : Str → Bool) (h : Heap V) (paths : List Key) (names : List Str) :
    h.localScope isId paths [] names = some (h.select isId paths) := by
  unfold Heap.localScope
  cases hsel : h.select isId paths with
  | mk h' r =>
    cases r with
    | error e => rfl
    | ok t => cases names <;> rfl

theorem LView.get_under {isId : Str → Bool} (hId : isId [] = false) {h g : Heap V}
    {S : List (List Str)} {L : Dict Str V} {t : PNode V} (hv : LView h S L t) {p : Str}
    (hp : splitChar sep p ∈ S) (hpv : (splitChar sep p).all isId = true) (hps : p ≠ [sep]) :
    ∃ q i rest, q ∈ S ∧ splitChar sep p = q ++ rest ∧ h.walk 0 q = some i ∧
      (∀ key, Under p key → key ≠ [sep] ∧
        ∃ r, splitChar sep key = q ++ (rest ++ r) ∧
          t.val g (splitChar sep key) = g.val i (rest ++ r)) := by
  have hs := hv.all _ hp []
  simp only [List.append_nil] at hs
  cases hf : t.front (splitChar sep p) with
  | none => rw [hf] at hs; cases hs
  | some x =>
    obtain ⟨i, rest⟩ := x
    obtain ⟨q, hq, hk, hw⟩ := hv.shows _ i rest hf
    refine ⟨q, i, rest, hq, hk, hw, ?_⟩
    intro key hu
    refine ⟨under_ne_sep hId hpv hps hu, ?_⟩
    obtain ⟨r, hr⟩ := (under_iff p key).1 hu
    refine ⟨r, by rw [hr, hk]; simp, ?_⟩
    rw [PNode.val_eq, hr, PNode.front_append _ r hf]

/-- **C05** without conditions: whatever happens in the global namespace afterwards, every selected
path is either a live view (all keys at or below it give the same handler, or the same exception, in
the local and in the global namespace), or it is lost (no handler at or below it is visible in the local
namespace). -/
theorem C05_live_or_lost (isId : Str → Bool) (hId : isId [] = false) (okValue : V → Bool)
    (before after : List (HOp V)) (paths : List Key) (handlers : List V) (names : List Str)
    (hnames : ∀ n ∈ names, '.' ∉ n) (h : Heap V) (t : PNode V)
    (hscope : (Heap.init.run isId okValue before).localScope isId paths handlers names
      = some (h, .ok t))
    (p : Str) (hp : Key.str p ∈ paths) :
    (∀ key, Under p key → t.get isId (h.run isId okValue after) (.str key)
        = (h.run isId okValue after).get isId (.str key)) ∨
    (∀ key v, Under p key → t.get isId (h.run isId okValue after) (.str key) ≠ .ok (some v)) := by
  have hg := Heap.run_good isId okValue before Heap.Good_init
  obtain ⟨hG, S, L, hv, _, _, _, _, hS, hpaths⟩ := Heap.localScope_spec isId hg hnames hscope
  have hg' := (hG.spec hg).1
  obtain ⟨s, hs1, hs2, hs3⟩ := hpaths _ hp
  cases hs1
  obtain ⟨q, i, rest, hq, hk, hw, hkey⟩ :=
    hv.get_under hId (g := h.run isId okValue after) ((hS _).2 ⟨p, hp, rfl⟩) hs3 hs2
  rcases Heap.run_live isId okValue after hg' hw with h1 | h1
  · left
    intro key hu
    obtain ⟨hne, r, hr, hval⟩ := hkey key hu
    rw [PNode.get_str, Heap.get_str, if_neg hne, if_neg hne, hval]
    congr 2
    rw [hr, Heap.val_append _ h1]
  · right
    intro key v hu
    obtain ⟨hne, r, hr, hval⟩ := hkey key hu
    rw [PNode.get_str, if_neg hne, hval, h1.2.2]
    split <;> simp

/-- **C05** for branches that never become empty: if after every later deletion at least one handler
is registered at or below the selected path, the local namespace gives there exactly what the global
namespace gives.  (In particular this holds when nothing is deleted at all.)  What is missing from the
full claim: histories in which the selected branch is or becomes empty at a deletion, see
`C05_selected_branch_fails`. -/
theorem C05_selected_branch_partial (isId : Str → Bool) (hId : isId [] = false) (okValue : V → Bool)
    (before after : List (HOp V)) (paths : List Key) (handlers : List V) (names : List Str)
    (hnames : ∀ n ∈ names, '.' ∉ n) (h : Heap V) (t : PNode V)
    (hscope : (Heap.init.run isId okValue before).localScope isId paths handlers names
      = some (h, .ok t))
    (hkept : ∀ p, Key.str p ∈ paths → ∀ a b k, after = a ++ .del k :: b →
      ∃ key v, Under p key ∧
        (h.run isId okValue (a ++ [.del k])).get isId (.str key) = .ok (some v))
    (p : Str) (hp : Key.str p ∈ paths) (key : Str) (hu : Under p key) :
    t.get isId (h.run isId okValue after) (.str key)
      = (h.run isId okValue after).get isId (.str key) := by
  have hg := Heap.run_good isId okValue before Heap.Good_init
  obtain ⟨hG, S, L, hv, _, _, _, _, hS, hpaths⟩ := Heap.localScope_spec isId hg hnames hscope
  have hg' := (hG.spec hg).1
  obtain ⟨s, hs1, hs2, hs3⟩ := hpaths _ hp
  cases hs1
  obtain ⟨q, i, rest, hq, hk, hw, hkey⟩ :=
    hv.get_under hId (g := h.run isId okValue after) ((hS _).2 ⟨p, hp, rfl⟩) hs3 hs2
  obtain ⟨p', hp', rfl⟩ := (hS q).1 hq
  have hlive : (h.run isId okValue after).walk 0 (splitChar sep p') = some i := by
    refine Heap.run_kept isId okValue after hg' hw ?_
    intro a op b hab hd
    cases op with
    | set k v => cases hd
    | select ps => cases hd
    | del k =>
      obtain ⟨key', v, hu', hget⟩ := hkept p' hp' a b k hab
      obtain ⟨s, hs1', hs2', hs3'⟩ := hpaths _ hp'
      cases hs1'
      have hne := under_ne_sep hId hs3' hs2' hu'
      rw [Heap.get_str, if_neg hne] at hget
      obtain ⟨r, hr⟩ := (under_iff p' key').1 hu'
      split at hget
      · refine ⟨r, ?_⟩
        rw [← hr]
        have := Except.ok.inj hget
        rw [this]; simp
      · cases hget
  obtain ⟨hne, r, hr, hval⟩ := hkey key hu
  rw [PNode.get_str, Heap.get_str, if_neg hne, if_neg hne, hval]
  congr 2
  rw [hr, Heap.val_append _ hlive]

/-- **C05**, second part: a handler that is visible in the local namespace is visible at or below a
selected path, or it is one of the handler objects given to the decorator.  Those get distinct names
that are not selected paths, in the order of the list, and stay as they are whatever happens in the
global namespace. -/
theorem C05_nothing_else_visible (isId : Str → Bool) (okValue : V → Bool)
    (before : List (HOp V)) (paths : List Key) (handlers : List V) (names : List Str)
    (hnames : ∀ n ∈ names, '.' ∉ n) (h : Heap V) (t : PNode V)
    (hscope : (Heap.init.run isId okValue before).localScope isId paths handlers names
      = some (h, .ok t)) :
    ∃ own : List (Str × V), own.map Prod.snd = handlers ∧ (own.map Prod.fst).Nodup ∧
      (own.map Prod.fst).Sublist names ∧ (∀ x ∈ own, Key.str x.1 ∉ paths) ∧
      ∀ after : List (HOp V),
        (∀ x ∈ own, t.get isId (h.run isId okValue after) (.str x.1) = .ok (some x.2)) ∧
        ∀ key v, t.get isId (h.run isId okValue after) key = .ok (some v) →
          ∃ s, key = .str s ∧ ((s, v) ∈ own ∨ ∃ p, Key.str p ∈ paths ∧ Under p s) := by
  have hg := Heap.run_good isId okValue before Heap.Good_init
  obtain ⟨hG, S, L, hv, hwf, hsnd, hsub, hLn, hS, hpaths⟩ :=
    Heap.localScope_spec isId hg hnames hscope
  have hsp : ∀ n, '.' ∉ n → splitChar sep n = [n] := fun n hn => splitChar_of_not_mem sep n hn
  have hne : ∀ n : Str, '.' ∉ n → n ≠ [sep] := by rintro n hn rfl; exact hn (by simp [sep])
  refine ⟨L, hsnd, hwf, hsub, ?_, ?_⟩
  · intro x hx hmem
    obtain ⟨h1, _, h3⟩ := hLn x.1 (List.mem_map_of_mem hx)
    exact h1 ((hS _).2 ⟨x.1, hmem, (hsp _ h3).symm⟩)
  · intro after
    constructor
    · intro x hx
      obtain ⟨h1, h2, h3⟩ := hLn x.1 (List.mem_map_of_mem hx)
      rw [PNode.get_str, if_neg (hne _ h3), hsp _ h3, if_pos (by simpa using h2), PNode.val_eq]
      have hL : Dict.get? x.1 L = some x.2 := (Dict.mem_iff_get? hwf _ _).1 hx
      cases hf : t.front [x.1] with
      | none => simp only; rw [hv.single, hL]
      | some y =>
        obtain ⟨i, rest⟩ := y
        obtain ⟨q, hq, hk, _⟩ := hv.shows _ i rest hf
        obtain ⟨s, _, rfl⟩ := (hS q).1 hq
        exfalso
        cases hs : splitChar sep s with
        | nil => exact splitChar_ne_nil _ _ hs
        | cons a b =>
          rw [hs] at hk hq
          simp only [List.cons_append, List.cons.injEq, List.nil_eq, List.append_eq_nil_iff] at hk
          obtain ⟨rfl, rfl, _⟩ := hk
          exact h1 hq
    · intro key v hget
      cases key with
      | other => simp [PNode.get, convKeys] at hget
      | str s =>
        refine ⟨s, rfl, ?_⟩
        rw [PNode.get_str] at hget
        by_cases hs : s = [sep]
        · rw [if_pos hs, PNode.val_eq] at hget
          cases hf : t.front [] with
          | none => rw [hf] at hget; simp only at hget; rw [hv.root] at hget; simp at hget
          | some y =>
            obtain ⟨i, rest⟩ := y
            obtain ⟨q, hq, hk, _⟩ := hv.shows _ i rest hf
            obtain ⟨s', _, rfl⟩ := (hS q).1 hq
            have := List.append_eq_nil_iff.1 hk.symm
            exact absurd this.1 (splitChar_ne_nil _ _)
        · rw [if_neg hs] at hget
          split at hget
          · have hval := Except.ok.inj hget
            rw [PNode.val_eq] at hval
            cases hf : t.front (splitChar sep s) with
            | some y =>
              obtain ⟨i, rest⟩ := y
              obtain ⟨q, hq, hk, _⟩ := hv.shows _ i rest hf
              obtain ⟨p, hp, rfl⟩ := (hS q).1 hq
              exact .inr ⟨p, hp, (under_iff p s).2 ⟨rest, hk⟩⟩
            | none =>
              rw [hf] at hval
              simp only at hval
              left
              cases hsp' : splitChar sep s with
              | nil => exact absurd hsp' (splitChar_ne_nil _ _)
              | cons a b =>
                rw [hsp'] at hval
                cases b with
                | cons c d => rw [hv.deep] at hval; cases hval
                | nil =>
                  rw [hv.single] at hval
                  have hj := joinChar_splitChar sep s
                  rw [hsp'] at hj
                  simp only [joinChar] at hj
                  subst hj
                  exact (Dict.mem_iff_get? hwf _ _).2 hval
          · cases hget

end Polog
