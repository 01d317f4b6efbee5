import Verif.Format.Props3
import Verif.Trace.Props

/-! C84: results, local variables and tracebacks in a line. -/

namespace Polog
open FormatSpec TraceSpec

/-- **C84**, `result`: the value a decorated function returned and its type. -/
theorem C84_result_is_shown (env : FmtEnv) (log : FLog) (a : ArgVal) (j : J) (dumped : Str) (h : getItem a = .ok j)
    (hloads : env.loads dumped = .ok j) (hlog : Dict.get? "result".toList log = some (.str dumped)) :
    ∃ t, ArgText env a t ∧ Cell env log "result".toList (some ("result: ".toList ++ t)) := by
  obtain ⟨t, h1, h2⟩ := humanReadable_item env h
  refine ⟨t, h2, .own _ ⟨exResult, by simp only [fieldHandlers, List.mem_cons, true_or, or_true], ?_⟩⟩
  unfold exResult
  rw [hlog]
  dsimp only
  rw [hloads]
  dsimp only
  rw [h1]
  rfl

theorem ShownWithType.eq {v : FVal} {t : Str} (h : ShownWithType v t) :
    ∃ x, v.textE = .ok x ∧ t = x ++ " (".toList ++ v.typeText ++ ")".toList := by
  have e : ∀ (x a b : Str), b = " (".toList ++ a ++ ")".toList → x ++ b = x ++ " (".toList ++ a ++ ")".toList := by
    rintro x a b rfl
    simp only [List.append_assoc]
  cases h with
  | none | true | false => exact ⟨_, rfl, by decide +kernel⟩
  | int | str | float => exact ⟨_, rfl, e _ _ _ (by dsimp only [FVal.typeText]; decide +kernel)⟩
  | other => exact ⟨_, rfl, rfl⟩

/-- **C84**, `result`: a result that a message or a handler has put in place of the JSON, as any other value, with its type. -/
theorem C84_other_result_is_shown (env : FmtEnv) (log : FLog) (v : FVal) (t : Str)
    (hv : ∀ s, v = .str s → env.loads s = .error .valueError) (ht : ShownWithType v t)
    (hlog : Dict.get? "result".toList log = some v) : Cell env log "result".toList (some ("result: ".toList ++ t)) := by
  refine .own _ ⟨exResult, by simp only [fieldHandlers, List.mem_cons, true_or, or_true], ?_⟩
  obtain ⟨x, hx, rfl⟩ := ht.eq
  have key : exResult env log = v.textE.map fun t => some ("result: ".toList ++ t ++ " (".toList ++ v.typeText ++ ")".toList) := by
    unfold exResult
    rw [hlog]
    cases v with
    | str s =>
      dsimp only
      rw [hv s rfl]
    | none | bool | int | float | other => rfl
  rw [key, hx]
  show Except.ok _ = _
  simp only [List.append_assoc]

example : ShownWithType (.str "kek".toList) "kek (<class 'str'>)".toList := .str _

/-- **C84**, `local_variables`: all local variables in their order. -/
theorem C84_local_variables_are_shown (env : FmtEnv) (log : FLog) (vars : Dict Str ArgVal) (j : J) (dumped : Str)
    (h : jsonVars [] vars = .ok (some j)) (hne : dumped ≠ []) (hloads : env.loads dumped = .ok j)
    (hlog : fget log "local_variables" = .str dumped) :
    ∃ texts, List.Forall₂ (KwargText env) vars texts ∧
      Cell env log "local_variables".toList
        (some ("local variables: ".toList ++ List.intercalate ", ".toList texts)) := by
  obtain ⟨texts, ktexts, h1, h2, h3⟩ := jsonVariables_text env [] vars j dumped h hne hloads
  cases h1
  refine ⟨ktexts, h2, .own _ ⟨exLocal, by simp only [fieldHandlers, List.mem_cons, true_or, or_true], ?_⟩⟩
  unfold exLocal
  rw [hlog]
  dsimp only
  rw [h3]
  rfl

/-! ### Words -/

theorem wordsFrom_acc_word (isSpace : Char → Bool) (w : Str) (hw : ∀ c ∈ w, isSpace c = false) : ∀ (acc rest : Str),
    wordsFrom isSpace acc (w ++ rest) = wordsFrom isSpace (acc ++ w) rest := by
  induction w with
  | nil => intro acc rest; simp
  | cons c w ih =>
    intro acc rest
    rw [List.cons_append, wordsFrom, if_neg (by simp [hw c (by simp)]), ih (fun d hd => hw d (by simp [hd]))]
    simp

theorem splitWords_word {isSpace : Char → Bool} {w : Str} (h : w ≠ []) (hw : ∀ c ∈ w, isSpace c = false) {c : Char}
    (hc : isSpace c = true) (s : Str) : splitWords isSpace (w ++ c :: s) = w :: splitWords isSpace s := by
  unfold splitWords
  rw [wordsFrom_acc_word isSpace w hw, List.nil_append, wordsFrom, if_pos hc, if_neg h]

theorem splitWords_space {isSpace : Char → Bool} {c : Char} (hc : isSpace c = true) (s : Str) :
    splitWords isSpace (c :: s) = splitWords isSpace s := by
  unfold splitWords
  rw [wordsFrom, if_pos hc, if_pos rfl]

theorem splitWords_words (isSpace : Char → Bool) (n : Nat) : ∀ s : Str, s.length ≤ n → Words isSpace s (splitWords isSpace s) := by
  induction n with
  | zero =>
    intro s hs
    obtain rfl := List.length_eq_zero_iff.1 (Nat.le_zero.1 hs)
    exact .nil
  | succ n ih =>
    intro s hs
    cases s with
    | nil => exact .nil
    | cons c s =>
      by_cases hc : isSpace c = true
      · rw [splitWords_space hc]
        exact .space hc (ih s (by simpa using hs))
      · have hc : isSpace c = false := by simpa using hc
        obtain ⟨w, rest, hws, hw, hr⟩ : ∃ w rest, s = w ++ rest ∧ (∀ d ∈ w, isSpace d = false) ∧
            (rest = [] ∨ ∃ d rest', rest = d :: rest' ∧ isSpace d = true) := by
          refine ⟨s.takeWhile fun d => !isSpace d, s.dropWhile fun d => !isSpace d,
            (List.takeWhile_append_dropWhile).symm, fun d hd => by simpa using List.mem_takeWhile_imp hd, ?_⟩
          cases hd : s.dropWhile fun d => !isSpace d with
          | nil => exact .inl rfl
          | cons d rest' =>
            have := List.head_dropWhile_not (fun d => !isSpace d) (l := s) (by rw [hd]; exact List.cons_ne_nil _ _)
            simp only [hd, List.head_cons] at this
            exact .inr ⟨d, rest', rfl, by simpa using this⟩
        have hcw : ∀ d ∈ c :: w, isSpace d = false := by
          intro d hd
          rcases List.mem_cons.1 hd with rfl | hd
          · exact hc
          · exact hw d hd
        rcases hr with rfl | ⟨d, rest', rfl, hd⟩
        · rw [List.append_nil] at hws
          subst hws
          have : splitWords isSpace (c :: s) = [c :: s] := by
            have := wordsFrom_acc_word isSpace (c :: s) hcw [] []
            rw [List.append_nil] at this
            unfold splitWords
            rw [this, wordsFrom, if_neg (by simp)]
            rfl
          rw [this]
          exact .last (by simp) hcw
        · subst hws
          rw [← List.cons_append, splitWords_word (by simp) hcw hd]
          refine .word (by simp) hcw hd (ih rest' ?_)
          simp only [List.length_cons, List.length_append] at hs
          omega

theorem words_unique {isSpace : Char → Bool} {s : Str} {ws : List Str} (h : Words isSpace s ws) :
    ws = splitWords isSpace s := by
  induction h with
  | nil => rfl
  | space hc _ ih => rw [splitWords_space hc]; exact ih
  | @last w h hw =>
    have := wordsFrom_acc_word isSpace w hw [] []
    rw [List.append_nil] at this
    unfold splitWords
    rw [this, wordsFrom, if_neg (by simpa using h)]
    rfl
  | word h hw hc _ ih => rw [splitWords_word h hw hc, ih]

/-! ### Tracebacks -/

theorem digits_alphanum (n : Nat) : ∀ c ∈ Nat.toDigits 10 n, c.isAlphanum = true := by
  intro c hc
  have := Nat.isDigit_of_mem_toDigits (by decide) (by decide) hc
  unfold Char.isAlphanum
  rw [this, Bool.or_true]

theorem entry_words {isSpace : Char → Bool} (hs : SpaceLike isSpace) (e : TbEntry) (hfile : ∀ c ∈ e.file, isSpace c = false)
    (hfn : ∀ c ∈ e.fn, isSpace c = false) (hne : e.fn ≠ []) :
    splitWords isSpace e.text = "File".toList :: ('"' :: e.file ++ "\",".toList) :: "line".toList ::
      (Nat.toDigits 10 e.line ++ ",".toList) :: "in".toList :: e.fn :: splitWords isSpace e.code := by
  obtain ⟨h1, h2, h3⟩ := hs
  have hq : isSpace '"' = false := h3 _ (.inr (.inl rfl))
  have hk : isSpace ',' = false := h3 _ (.inr (.inr rfl))
  have e1 : e.text = ' ' :: ' ' :: ("File".toList ++ ' ' :: (('"' :: e.file ++ "\",".toList) ++ ' ' :: ("line".toList ++ ' ' ::
      ((Nat.toDigits 10 e.line ++ ",".toList) ++ ' ' :: ("in".toList ++ ' ' :: (e.fn ++ '\n' :: e.code)))))) := by
    unfold TbEntry.text
    simp
  have hword : ∀ w : Str, (∀ c ∈ w, c.isAlphanum = true) → ∀ c ∈ w, isSpace c = false := fun w hw c hc => h3 c (.inl (hw c hc))
  rw [e1, splitWords_space h1, splitWords_space h1, splitWords_word (by decide) (hword _ (by decide)) h1,
    splitWords_word (by simp) ?_ h1, splitWords_word (by decide) (hword _ (by decide)) h1,
    splitWords_word (by simp) ?_ h1, splitWords_word (by decide) (hword _ (by decide)) h1, splitWords_word hne hfn h2]
  · intro c hc
    rcases List.mem_append.1 hc with hc | hc
    · exact hword _ (digits_alphanum e.line) c hc
    · rw [List.mem_singleton.1 hc]; exact hk
  · intro c hc
    rcases List.mem_append.1 hc with hc | hc
    · rcases List.mem_cons.1 hc with rfl | hc
      · exact hq
      · exact hfile c hc
    · rcases List.mem_cons.1 hc with rfl | hc
      · exact hq
      · rw [List.mem_singleton.1 hc]; exact hk

theorem tracebackLine_entry {env : FmtEnv} (hs : SpaceLike env.isSpace) (e : TbEntry)
    (hfile : ∀ c ∈ e.file, env.isSpace c = false) (hfn : ∀ c ∈ e.fn, env.isSpace c = false) (hne : e.fn ≠ []) :
    ∃ t, tracebackLine env (.str e.text) = .ok t ∧ EntryShown env.isSpace e t := by
  refine ⟨_, ?_, splitWords env.isSpace e.code, splitWords_words _ _ _ (Nat.le_refl _), rfl⟩
  unfold tracebackLine
  dsimp only
  rw [entry_words hs e hfile hfn hne]
  simp [joinStr_eq]

/-- **C84**, `traceback`: the line of a record shows every entry of the traceback, in order: the text of the line of code, the file,
the number of the line and the function.

Partial: if there is no white space in the names of files (names of functions have none). -/
theorem C84_traceback_is_shown_partial (env : FmtEnv) (log : FLog) (entries : List TbEntry) (dumped : Str)
    (hs : SpaceLike env.isSpace) (hfile : ∀ e ∈ entries, ∀ c ∈ e.file, env.isSpace c = false)
    (hfn : ∀ e ∈ entries, (∀ c ∈ e.fn, env.isSpace c = false) ∧ e.fn ≠ []) (hne : dumped ≠ [])
    (hloads : env.loads dumped = .ok (.arr (entries.map fun e => .str e.text))) (hlog : fget log "traceback" = .str dumped) :
    (entries = [] → Cell env log "traceback".toList (some "no traceback".toList)) ∧
    (entries ≠ [] → ∃ texts, List.Forall₂ (EntryShown env.isSpace) entries texts ∧
      Cell env log "traceback".toList (some ("traceback: ".toList ++ List.intercalate "; ".toList texts))) := by
  have key : ∀ t, exTraceback env log = .ok t → Cell env log "traceback".toList t := fun t h =>
    .own _ ⟨exTraceback, by simp only [fieldHandlers, List.mem_cons, true_or, or_true], h⟩
  have ht : (FVal.str dumped).truthy = true := by unfold FVal.truthy; simpa using hne
  constructor
  · rintro rfl
    refine key _ ?_
    unfold exTraceback
    rw [hlog]
    dsimp only
    rw [if_pos ht]
    unfold loadsV
    dsimp only
    rw [hloads]
    rfl
  · intro hent
    have hmap : ∃ texts, mapExcept (tracebackLine env) (entries.map fun e => .str e.text) = .ok texts ∧
        List.Forall₂ (EntryShown env.isSpace) entries texts := by
      clear hloads hent
      induction entries with
      | nil => exact ⟨[], rfl, .nil⟩
      | cons e entries ih =>
        obtain ⟨ts, h1, h2⟩ := ih (fun x hx => hfile x (List.mem_cons_of_mem _ hx)) (fun x hx => hfn x (List.mem_cons_of_mem _ hx))
        obtain ⟨t, h3, h4⟩ := tracebackLine_entry hs e (hfile e List.mem_cons_self) (hfn e List.mem_cons_self).1
          (hfn e List.mem_cons_self).2
        refine ⟨t :: ts, ?_, .cons h4 h2⟩
        rw [List.map_cons, mapExcept, h3]
        dsimp only
        rw [h1]
    obtain ⟨texts, h1, h2⟩ := hmap
    refine ⟨texts, h2, key _ ?_⟩
    unfold exTraceback
    rw [hlog]
    dsimp only
    rw [if_pos ht]
    unfold loadsV
    dsimp only
    rw [hloads]
    dsimp only
    rw [if_pos (by cases entries with
      | nil => exact absurd rfl hent
      | cons => rfl)]
    dsimp only [J.items]
    rw [h1, ← joinStr_eq]
    rfl

/-- **C84** and **C72** together: an exception in a decorated function. The line of the record shows exactly the way from this function
to the place of the error.

Partial: functions written in Python, cutting on, and no white space in the names of files. -/
theorem C84_line_shows_the_way_to_the_error_partial (tenv : TbEnv) (hc : tenv.cutting = true) (k : Nat) (c : TbCode) (s : TbState)
    (r : TbRecord) (hr : r ∈ (runTb tenv (.user k) c s).2.records) (hnew : r ∉ s.records) (n : Nat) (hn : r.auto = some n)
    (hnat : ∀ e, ¬ DecoratedNative n e c)
    (info : TbFrame → TbEntry) (hformat : ∀ f, tenv.format f = (info f).text)
    (env : FmtEnv) (hs : SpaceLike env.isSpace) (hfile : ∀ f, ∀ c ∈ (info f).file, env.isSpace c = false)
    (hfn : ∀ f, (∀ c ∈ (info f).fn, env.isSpace c = false) ∧ (info f).fn ≠ [])
    (hjson : ∀ l, ∃ text, tenv.dumps l = some text ∧ text ≠ [] ∧ env.loads text = .ok (.arr (l.map .str)))
    (log : FLog) (hlog : ∀ t, r.traceback = some t → fget log "traceback" = .str t) :
    ∃ body tb texts, DecoratedCall n body c ∧ natural (.user n) body = some (r.exc, tb) ∧
      List.Forall₂ (fun f t => EntryShown env.isSpace (info f) t) tb texts ∧
      Cell env log "traceback".toList
        (some (if tb = [] then "no traceback".toList else "traceback: ".toList ++ List.intercalate "; ".toList texts)) := by
  obtain ⟨body, tb, h1, h2, h3, _⟩ := C72_record_of_a_decorated_call_partial tenv hc k c s r hr hnew n hn hnat
  obtain ⟨text, h4, h5, h6⟩ := hjson (tb.map tenv.format)
  have h7 : (tb.map tenv.format).map J.str = (tb.map info).map fun e => J.str e.text := by
    simp [hformat]
  rw [h7] at h6
  have h8 := C84_traceback_is_shown_partial env log (tb.map info) text hs
    (fun e he => by obtain ⟨f, _, rfl⟩ := List.mem_map.1 he; exact hfile f)
    (fun e he => by obtain ⟨f, _, rfl⟩ := List.mem_map.1 he; exact hfn f) h5 h6 (hlog _ (h3 text h4))
  by_cases ht : tb = []
  · refine ⟨body, tb, [], h1, h2, by rw [ht]; exact .nil, ?_⟩
    rw [if_pos ht]
    exact h8.1 (by rw [ht]; rfl)
  · obtain ⟨texts, h9, h10⟩ := h8.2 (by simpa using ht)
    refine ⟨body, tb, texts, h1, h2, List.forall₂_map_left_iff.1 h9, ?_⟩
    rw [if_neg ht]
    exact h10

/-! ### Examples and failures -/

/-- White space of ASCII. -/
def asciiSpace (c : Char) : Bool := c == ' ' || c == '\n' || c == '\t' || c == '\r'

theorem asciiSpace_like : SpaceLike asciiSpace := by
  refine ⟨rfl, rfl, fun c h => ?_⟩
  cases hc : asciiSpace c with
  | false => rfl
  | true =>
    unfold asciiSpace at hc
    simp only [Bool.or_eq_true, beq_iff_eq] at hc
    rcases hc with ((rfl | rfl) | rfl) | rfl <;> revert h <;> decide

/-- A JSON module that knows one document. -/
def tbExampleEnv (entries : List TbEntry) : FmtEnv :=
  { fmtExampleEnv with loads := fun _ => .ok (.arr (entries.map fun e => .str e.text)), isSpace := asciiSpace }

example : formatLine (tbExampleEnv [⟨"/a/b.py".toList, 10, "f".toList, "    x = 1 / 0\n".toList⟩]) (Levels.standard .empty) "\n".toList
    [("traceback".toList, .str "...".toList)] =
    .ok "[----time not specified----] | UNKNOWN  | UNKNOWN | MANUAL | where: shop.? | traceback: x = 1 / 0 (\"/a/b.py\", line 10, in f)\n".toList := by
  decide +kernel

/-- A JSON module of a kind, for lists of strings: strings end with `y`, characters begin with `x`. -/
def simpleDumps (l : List Str) : Str := '[' :: l.flatMap fun w => (w.flatMap fun c => ['x', c]) ++ ['y']

theorem simpleDumps_inj : ∀ {l l' : List Str}, simpleDumps l = simpleDumps l' → l = l' := by
  have hw : ∀ (w w' r r' : Str), (w.flatMap fun c => ['x', c]) ++ 'y' :: r = (w'.flatMap fun c => ['x', c]) ++ 'y' :: r' →
      w = w' ∧ r = r' := by
    intro w
    induction w with
    | nil => intro w' r r' h; cases w' with
      | nil => exact ⟨rfl, by simpa using h⟩
      | cons c w' => simp at h
    | cons c w ih => intro w' r r' h; cases w' with
      | nil => simp at h
      | cons c' w' =>
        simp only [List.flatMap_cons, List.cons_append, List.cons.injEq, true_and, List.nil_append] at h
        obtain ⟨rfl, h⟩ := h
        obtain ⟨rfl, hr⟩ := ih w' r r' h
        exact ⟨rfl, hr⟩
  intro l
  unfold simpleDumps
  induction l with
  | nil => intro l' h; cases l' with
    | nil => rfl
    | cons w l' => simp at h
  | cons w l ih => intro l' h; cases l' with
    | nil => simp at h
    | cons w' l' =>
      simp only [List.flatMap_cons, List.append_assoc, List.cons_append, List.nil_append, List.cons.injEq, true_and] at h
      obtain ⟨rfl, hr⟩ := hw _ _ _ _ h
      rw [ih (l' := l') (by rw [hr])]

open Classical in
/-- It reads what it wrote. -/
noncomputable def simpleLoads (text : Str) : Except PyErr J :=
  if h : ∃ l, simpleDumps l = text then .ok (.arr (h.choose.map .str)) else .error .valueError

theorem simpleLoads_dumps (l : List Str) : simpleLoads (simpleDumps l) = .ok (.arr (l.map .str)) := by
  have h : ∃ l', simpleDumps l' = simpleDumps l := ⟨l, rfl⟩
  unfold simpleLoads
  rw [dif_pos h, simpleDumps_inj h.choose_spec]

/-- The function `n` is in the `n`th line of `a.py`. -/
def tbInfo : TbFrame → TbEntry
  | .user n => ⟨"a.py".toList, n, "f".toList, "    g()\n".toList⟩
  | .wrapper n => ⟨"polog.py".toList, n, "wrapper".toList, "    raise e\n".toList⟩

/-- The hypotheses of `C84_line_shows_the_way_to_the_error_partial` can be met, with a record of a decorated function. -/
example : ∃ (tenv : TbEnv) (r : TbRecord) (env : FmtEnv) (log : FLog), tenv.cutting = true ∧
    r ∈ (runTb tenv (.user 1) tbChain ⟨[], []⟩).2.records ∧ r.auto = some 3 ∧ (∀ e, ¬ DecoratedNative 3 e tbChain) ∧
    (∀ f, tenv.format f = (tbInfo f).text) ∧ SpaceLike env.isSpace ∧ (∀ f, ∀ c ∈ (tbInfo f).file, env.isSpace c = false) ∧
    (∀ f, (∀ c ∈ (tbInfo f).fn, env.isSpace c = false) ∧ (tbInfo f).fn ≠ []) ∧
    (∀ l, ∃ text, tenv.dumps l = some text ∧ text ≠ [] ∧ env.loads text = .ok (.arr (l.map .str))) ∧
    (∀ t, r.traceback = some t → fget log "traceback" = .str t) := by
  refine ⟨⟨fun f => (tbInfo f).text, fun l => some (simpleDumps l), fun _ => none, true, true⟩,
    ⟨some 3, 7, some (simpleDumps [(tbInfo (.user 3)).text]), some []⟩, { fmtExampleEnv with loads := simpleLoads, isSpace := asciiSpace },
    [("traceback".toList, .str (simpleDumps [(tbInfo (.user 3)).text]))], rfl, List.mem_singleton.2 rfl, rfl, ?_, fun _ => rfl,
    asciiSpace_like, ?_, ?_, ?_, ?_⟩
  · intro e h
    unfold tbChain at h
    cases h with
    | inBody h => cases h with
      | inBody h => cases h
      | after h => cases h
    | after h => cases h
  · intro f
    cases f with
    | user n => exact (show ∀ c ∈ "a.py".toList, asciiSpace c = false by decide)
    | wrapper n => exact (show ∀ c ∈ "polog.py".toList, asciiSpace c = false by decide)
  · intro f
    cases f with
    | user n => exact (show (∀ c ∈ "f".toList, asciiSpace c = false) ∧ "f".toList ≠ [] by decide)
    | wrapper n => exact (show (∀ c ∈ "wrapper".toList, asciiSpace c = false) ∧ "wrapper".toList ≠ [] by decide)
  · exact fun l => ⟨_, rfl, (fun h => nomatch h), simpleLoads_dumps l⟩
  · intro t h; cases h; rfl

/-- **C84 fails** for files with a blank in the name: the line of the log shows half of the name, no number of a line, and the name of the
function among the words of the code. -/
theorem C84_file_name_with_a_blank_fails : ∃ (env : FmtEnv) (log : FLog) (e : TbEntry) (dumped : Str), SpaceLike env.isSpace ∧
    dumped ≠ [] ∧ env.loads dumped = .ok (.arr [.str e.text]) ∧ fget log "traceback" = .str dumped ∧
    Cell env log "traceback".toList (some "traceback: f x = 1 / 0 (\"/my line line in in)".toList) ∧
    ¬ ∃ t, EntryShown env.isSpace e t ∧ Cell env log "traceback".toList (some ("traceback: ".toList ++ t)) := by
  have hm : ("traceback".toList, exTraceback) ∈ fieldHandlers := by simp only [fieldHandlers, List.mem_cons, true_or, or_true]
  refine ⟨tbExampleEnv [⟨"/my code.py".toList, 10, "f".toList, "    x = 1 / 0\n".toList⟩], [("traceback".toList, .str "...".toList)],
    ⟨"/my code.py".toList, 10, "f".toList, "    x = 1 / 0\n".toList⟩, "...".toList, asciiSpace_like, by decide, rfl, rfl, ?_, ?_⟩
  · exact (cell_iff hm _).2 (by decide +kernel)
  · rintro ⟨t, ⟨ws, hw, ht⟩, hc⟩
    have h1 := (cell_iff hm _).1 hc
    rw [words_unique hw] at ht
    rw [ht] at h1
    revert h1
    decide +kernel

/-- The line for `return 'done'`, and for an exception with a local variable `x = 5`. -/
example : formatLine { fmtExampleEnv with loads := fun _ => .ok (.obj [("value".toList, .str "done".toList), ("type".toList, .str "str".toList)]) }
    (Levels.standard .empty) [] [("result".toList, .str "...".toList), ("auto".toList, .bool true)] =
    .ok "[----time not specified----] | UNKNOWN  | UNKNOWN |  AUTO  | where: shop.? | result: \"done\" (str)".toList := by
  decide +kernel

example : formatLine { fmtExampleEnv with loads := fun _ => .ok (.obj [("kwargs".toList, .obj [("x".toList, .obj [("value".toList, .int 5), ("type".toList, .str "int".toList)])])]) }
    (Levels.standard .empty) [] [("local_variables".toList, .str "...".toList), ("auto".toList, .bool true)] =
    .ok "[----time not specified----] | UNKNOWN  | UNKNOWN |  AUTO  | where: shop.? | local variables: x = 5 (int)".toList := by
  decide +kernel

end Polog
