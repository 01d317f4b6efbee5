import Verif.Trace.Lemmas

/-!
C72: tracebacks and local variables in the records, and what the caller of a decorated function sees.
-/

namespace Polog
open TraceSpec

/-- **C72**: with `traceback_cutting` on, code ends with the same exception and the same traceback as it would without decorators,
however deep decorated and other functions, handlers and manual logs are nested. -/
theorem C72_caller_sees_the_original_traceback (env : TbEnv) (hc : env.cutting = true) (k : Nat) (c : TbCode) (s : TbState) :
    (runTb env (.user k) c s).1 = natural (.user k) c := by
  rcases (runTb_right env c k s).1 with ⟨h1, h2⟩ | ⟨e, tb, tn, h1, h2, h3⟩
  · rw [h1, h2]
  · rw [h1, h2, h3.2 hc]

/-- **C72**: with cutting off the traceback only has additional entries, of the decorators. -/
theorem C72_without_cutting (env : TbEnv) (k : Nat) (c : TbCode) (s : TbState) :
    natural (.user k) c = (runTb env (.user k) c s).1.map fun x => (x.1, ofProgram x.2) := by
  rcases (runTb_right env c k s).1 with ⟨h1, h2⟩ | ⟨e, tb, tn, h1, h2, h3⟩
  · rw [h1, h2]; rfl
  · rw [h1, h2, ← h3.1]; rfl

/-- **C72**, records of decorators. The traceback in a record of a decorated function is the way from this function to the place of
the error, without entries of decorators, and the local variables are those of this call of the function.

Partial: functions written in Python, cutting on; see `C72_function_written_in_C_fails`. -/
theorem C72_record_of_a_decorated_call_partial (env : TbEnv) (hc : env.cutting = true) (k : Nat) (c : TbCode) (s : TbState)
    (r : TbRecord) (hr : r ∈ (runTb env (.user k) c s).2.records) (hs : r ∉ s.records) (n : Nat) (hn : r.auto = some n)
    (hnat : ∀ e, ¬ DecoratedNative n e c) :
    ∃ body tb, DecoratedCall n body c ∧ natural (.user n) body = some (r.exc, tb) ∧
      (∀ text, env.dumps (tb.map env.format) = some text → r.traceback = some text) ∧
      ∀ vars, env.vars (.user n) = some vars → r.locals = some vars := by
  rcases (runTb_right env c k s).2 r hr with h | ⟨m, b, tn, tb, a1, a2, a3, a4, a5, a6⟩ | ⟨m, a1, a2, _⟩ |
    ⟨_, _, _, _, _, _, a1, _⟩
  · exact absurd h hs
  · obtain rfl : m = n := by rw [hn] at a1; cases a1; rfl
    refine ⟨b, tn, a2, a3, fun text ht => ?_, fun vars hv => by rw [a6, hv]; rfl⟩
    rw [a5, a4.2 hc]
    unfold getTraceback
    rw [List.drop_zero, ht]
  · obtain rfl : m = n := by rw [hn] at a1; cases a1; rfl
    exact absurd a2 (hnat _)
  · rw [hn] at a1; cases a1

/-- **C72**: the same with cutting off; then entries of decorators of inner calls may be there as well, but never one of its own. -/
theorem C72_record_without_cutting_partial (env : TbEnv) (k : Nat) (c : TbCode) (s : TbState)
    (r : TbRecord) (hr : r ∈ (runTb env (.user k) c s).2.records) (hs : r ∉ s.records) (n : Nat) (hn : r.auto = some n)
    (hnat : ∀ e, ¬ DecoratedNative n e c) :
    ∃ body tb, DecoratedCall n body c ∧ natural (.user n) body = some (r.exc, ofProgram tb) ∧
      (∀ text, env.dumps (tb.map env.format) = some text → r.traceback = some text) ∧
      ∀ vars, env.vars (.user n) = some vars → r.locals = some vars := by
  rcases (runTb_right env c k s).2 r hr with h | ⟨m, b, tn, tb, a1, a2, a3, a4, a5, a6⟩ | ⟨m, a1, a2, _⟩ |
    ⟨_, _, _, _, _, _, a1, _⟩
  · exact absurd h hs
  · obtain rfl : m = n := by rw [hn] at a1; cases a1; rfl
    refine ⟨b, tb, a2, by rw [a3, a4.1], fun text ht => ?_, fun vars hv => by rw [a6, hv]; rfl⟩
    rw [a5]
    unfold getTraceback
    rw [List.drop_zero, ht]
  · obtain rfl : m = n := by rw [hn] at a1; cases a1; rfl
    exact absurd a2 (hnat _)
  · rw [hn] at a1; cases a1

/-- **C72**: the first decorator that sees the exception makes exactly one record about it, if its level passes; and with
`deduplicate_errors=False` all the others do so too. -/
theorem C72_first_decorator_makes_the_record (env : TbEnv) (k n : Nat) (d : TbDeco) (body : TbCode) (s s1 : TbState) (e : Nat)
    (tb : List TbFrame) (hb : runTb env (.user n) body s = (some (e, tb), s1)) (he : e ∉ s1.checked ∨ env.dedup = false) (hp : d.passes = true) :
    ∃ r, (runTb env (.user k) (.call (some d) n body .done) s).2.records = s1.records ++ [r] ∧ r.auto = some n ∧ r.exc = e := by
  have hl : logTbException env d n e (.wrapper n :: tb) s1 =
      ⟨e :: s1.checked, s1.records ++ [⟨some n, e, getTraceback env (.wrapper n :: tb) 1,
        some (getLocals env (.wrapper n :: tb))⟩]⟩ := by
    unfold logTbException
    rw [if_pos he, if_pos hp]
  refine ⟨⟨some n, e, getTraceback env (.wrapper n :: tb) 1, some (getLocals env (.wrapper n :: tb))⟩, ?_, rfl, rfl⟩
  simp only [runTb, hb, throughAny, throughDecorator, hl]
  by_cases hsup : d.suppresses e = true
  · rw [if_pos hsup]
  · rw [if_neg hsup]

/-- What running code does to the records about an exception when errors are deduplicated. -/
private def AtMostOne (e : Nat) (s s' : TbState) : Prop :=
  (e ∈ s.checked → e ∈ s'.checked) ∧
    (recordsAbout e s'.records = recordsAbout e s.records ∨
      recordsAbout e s'.records = recordsAbout e s.records + 1 ∧ e ∉ s.checked ∧ e ∈ s'.checked)

private theorem AtMostOne.refl (e : Nat) (s : TbState) : AtMostOne e s s := ⟨id, .inl rfl⟩

private theorem AtMostOne.trans {e : Nat} {a b c : TbState} (h : AtMostOne e a b) (h' : AtMostOne e b c) : AtMostOne e a c := by
  unfold AtMostOne at *
  grind

private theorem AtMostOne.hand (env : TbEnv) (e x : Nat) (tb : List TbFrame) (s : TbState) :
    AtMostOne e s (logByHand env x tb s) :=
  ⟨id, .inl (by simp [logByHand, recordsAbout])⟩

private theorem AtMostOne.through (env : TbEnv) (hd : env.dedup = true) (e : Nat) (deco : Option TbDeco) (n : Nat) (r : TbEnd)
    (s : TbState) : AtMostOne e s (throughAny env deco n r s).2 := by
  cases deco with
  | none => exact .refl e s
  | some d =>
    cases r with
    | none => exact .refl e s
    | some x =>
      obtain ⟨e', tb⟩ := x
      have h : AtMostOne e s (logTbException env d n e' (.wrapper n :: tb) s) := by
        unfold logTbException
        split
        · rename_i hc
          rw [hd] at hc
          have hc : e' ∉ s.checked := hc.resolve_right (fun h => nomatch h)
          by_cases he : e' = e
          · subst he
            split
            · exact ⟨fun h => List.mem_cons_of_mem _ h, .inr ⟨by simp [recordsAbout], hc, List.mem_cons_self⟩⟩
            · exact ⟨fun h => List.mem_cons_of_mem _ h, .inl rfl⟩
          · split
            · exact ⟨fun h => List.mem_cons_of_mem _ h, .inl (by simp [recordsAbout, he])⟩
            · exact ⟨fun h => List.mem_cons_of_mem _ h, .inl rfl⟩
        · exact .refl e s
      simp only [throughAny, throughDecorator]
      split <;> exact h

private theorem runTb_atMostOne (env : TbEnv) (hd : env.dedup = true) (e : Nat) : ∀ (c : TbCode) (fr : TbFrame) (s : TbState),
    AtMostOne e s (runTb env fr c s).2 := by
  intro c
  induction c with
  | done => intro fr s; exact .refl e s
  | raise e' => intro fr s; exact .refl e s
  | call deco n body rest ihb ihr =>
    intro fr s
    have h1 := ihb (.user n) s
    simp only [runTb]
    generalize runTb env (.user n) body s = r at h1 ⊢
    obtain ⟨r, s1⟩ := r
    have h2 := AtMostOne.through env hd e deco n r s1
    dsimp only at h1 ⊢
    generalize throughAny env deco n r s1 = q at h2 ⊢
    obtain ⟨q, s2⟩ := q
    cases q with
    | none => exact (h1.trans h2).trans (ihr fr s2)
    | some x => exact h1.trans h2
  | native deco n raises rest ihr =>
    intro fr s
    have h2 := AtMostOne.through env hd e deco n (raises.map fun e => (e, [])) s
    simp only [runTb]
    generalize throughAny env deco n (raises.map fun e => (e, [])) s = q at h2 ⊢
    obtain ⟨q, s2⟩ := q
    cases q with
    | none => exact h2.trans (ihr fr s2)
    | some x => exact h2
  | handler body logs other ends rest ihb ihr =>
    intro fr s
    have h1 := ihb fr s
    simp only [runTb]
    generalize runTb env fr body s = r at h1 ⊢
    obtain ⟨r, s1⟩ := r
    cases r with
    | none => exact h1.trans (ihr fr s1)
    | some x =>
      obtain ⟨e', tb⟩ := x
      dsimp only at h1 ⊢
      have h2 : AtMostOne e s1 (if logs = true then logByHand env (other.getD e') tb s1 else s1) := by
        split
        · exact .hand ..
        · exact .refl ..
      cases ends with
      | swallow => exact (h1.trans h2).trans (ihr fr _)
      | reraise => exact h1.trans h2
      | raiseSame => exact h1.trans h2
      | raiseOther e2 => exact h1.trans h2

/-- **C72**: with `deduplicate_errors` on, the decorators of a program make at most one record about an exception, however many of
them it passes and however often it is caught and raised again; none if one of them has seen it before. -/
theorem C72_one_record_per_exception (env : TbEnv) (hd : env.dedup = true) (fr : TbFrame) (c : TbCode) (s : TbState) (e : Nat) :
    recordsAbout e (runTb env fr c s).2.records ≤ recordsAbout e s.records + (if e ∈ s.checked then 0 else 1) := by
  rcases (runTb_atMostOne env hd e c fr s).2 with h | ⟨h, hn, _⟩
  · omega
  · rw [h, if_neg hn]; exact Nat.le_refl _

/-- **C72**: with `deduplicate_errors` on, only the innermost decorator decides about the record of an exception: if its level does
not pass, the decorators around it make none either. -/
theorem C72_outer_decorators_make_no_record (env : TbEnv) (hd : env.dedup = true) (k m n : Nat) (outer inner : TbDeco)
    (body rest : TbCode) (s s1 : TbState) (e : Nat) (tb : List TbFrame)
    (hb : runTb env (.user n) body s = (some (e, tb), s1)) (hs : inner.suppresses e = false) :
    (runTb env (.user k) (.call (some outer) m (.call (some inner) n body rest) .done) s).2.records =
      (runTb env (.user m) (.call (some inner) n body rest) s).2.records := by
  have hin : ∀ l, e ∈ (logTbException env inner n e l s1).checked := by
    intro l
    unfold logTbException
    split
    · split <;> exact List.mem_cons_self
    · rename_i hc
      exact Classical.byContradiction fun h => hc (.inl h)
  have hin := hin (.wrapper n :: tb)
  have e1 : runTb env (.user m) (.call (some inner) n body rest) s =
      (some (e, .user m :: cutTraceback env (.wrapper n :: tb)), logTbException env inner n e (.wrapper n :: tb) s1) := by
    simp only [runTb, hb, throughAny, throughDecorator, hs]
    rfl
  generalize logTbException env inner n e (.wrapper n :: tb) s1 = s2 at hin e1
  generalize (TbFrame.user m :: cutTraceback env (.wrapper n :: tb)) = tb2 at e1
  have e2 : logTbException env outer m e (.wrapper m :: tb2) s2 = s2 := by
    unfold logTbException
    rw [if_neg]
    rw [hd]
    exact fun h => h.elim (fun h => h hin) (fun h => nomatch h)
  rw [e1, runTb, e1]
  simp only [throughAny, throughDecorator, e2]
  split <;> rename_i h
  · split at h
    · cases h; rfl
    · cases h
  · split at h
    · cases h
    · cases h; rfl

/-- **C72**, `log(…, exception=e)` inside `except Exception as e:`. The traceback is the one of `e`, from the function with the handler
to the place of the error; the local variables are those of the function called by it through which the error came, or its
own if the error arose in itself. -/
theorem C72_record_by_hand_partial (env : TbEnv) (hc : env.cutting = true) (k : Nat) (c : TbCode) (s : TbState)
    (r : TbRecord) (hr : r ∈ (runTb env (.user k) c s).2.records) (hs : r ∉ s.records) (hn : r.auto = none) :
    ∃ fr body other e tb, LogsByHand fr body other (.user k) c ∧ natural fr body = some (e, tb) ∧
      (other = none → r.exc = e) ∧
      (∀ text, env.dumps (tb.map env.format) = some text → r.traceback = some text) ∧
      ∀ f vars, (tb = [f] ∨ ∃ g t, tb = g :: f :: t) → env.vars f = some vars → vars ≠ [] → r.locals = some vars := by
  rcases (runTb_right env c k s).2 r hr with h | ⟨_, _, _, _, a1, _⟩ | ⟨_, a1, _⟩ |
    ⟨g, b, o, e, tn, tb, a1, a2, a3, a4, a5, a6, a7⟩
  · exact absurd h hs
  · rw [hn] at a1; cases a1
  · rw [hn] at a1; cases a1
  · rw [a5.2 hc] at a6 a7
    refine ⟨g, b, o, e, tn, a2, a3, fun h => by rw [a4, h]; rfl, fun text ht => ?_, fun f vars hf hv hne => ?_⟩
    · rw [a6]
      unfold getTraceback
      rw [List.drop_zero, ht]
    · have hg : getLocals env tn = vars := by
        rcases hf with rfl | ⟨g', t, rfl⟩
        · show (env.vars f).getD [] = vars
          rw [hv]; rfl
        · show (env.vars f).getD [] = vars
          rw [hv]; rfl
      rw [a7, hg, if_neg hne]

/-! ### Examples and failures -/

/-- A function with number 1 calls the decorated function 2, which calls the decorated function 3, which raises. -/
def tbChain : TbCode :=
  .call (some ⟨true, fun _ => false⟩) 2 (.call (some ⟨true, fun _ => false⟩) 3 (.raise 7) .done) .done

/-- The digit of a small number. -/
def tbDigit (n : Nat) : Str := [Char.ofNat (48 + n)]

/-- Texts in which everything can be told apart. -/
def tbEnv (cutting dedup : Bool) : TbEnv where
  format := fun f => match f with | .user n => tbDigit n | .wrapper n => 'w' :: tbDigit n
  dumps := fun l => some (l.flatMap fun x => ' ' :: x)
  vars := fun f => match f with | .user n => some ('v' :: tbDigit n) | .wrapper n => some ('w' :: tbDigit n)
  cutting := cutting
  dedup := dedup

example : (runTb (tbEnv true false) (.user 1) tbChain ⟨[], []⟩).1 = some (7, [.user 1, .user 2, .user 3]) := by decide

example : (runTb (tbEnv false false) (.user 1) tbChain ⟨[], []⟩).1 =
    some (7, [.user 1, .wrapper 2, .user 2, .wrapper 3, .user 3]) := by decide

example : ((runTb (tbEnv true false) (.user 1) tbChain ⟨[], []⟩).2.records.map fun r => (r.auto, r.traceback, r.locals)) =
    [(some 3, some " 3".toList, some "v3".toList), (some 2, some " 2 3".toList, some "v2".toList)] := by decide +kernel

example : ((runTb (tbEnv false true) (.user 1) tbChain ⟨[], []⟩).2.records.map fun r => (r.auto, r.traceback, r.locals)) =
    [(some 3, some " 3".toList, some "v3".toList)] := by decide +kernel

/-- An inner decorator with a level below the threshold: no record at all. -/
example : runTb (tbEnv true true) (.user 1)
    (.call (some ⟨true, fun _ => false⟩) 2 (.call (some ⟨false, fun _ => false⟩) 3 (.raise 7) .done) .done) ⟨[], []⟩ =
    (some (7, [.user 1, .user 2, .user 3]), ⟨[7], []⟩) := rfl

/-- **C72** fails for functions written in C (`log(int)('x')`): they have no frame, so the record shows the local variables of the
decorator itself, with its own internal names. -/
theorem C72_function_written_in_C_fails :
    ¬ ∀ (env : TbEnv) (_ : env.cutting = true) (k : Nat) (c : TbCode) (s : TbState),
      ∀ r ∈ (runTb env (.user k) c s).2.records, r ∈ s.records ∨ ∀ n, r.locals ≠ env.vars (.wrapper n) := by
  intro h
  have := h (tbEnv true true) rfl 1 (.native (some ⟨true, fun _ => false⟩) 2 (some 7) .done) ⟨[], []⟩
    ⟨some 2, 7, some [], some "w2".toList⟩ (by
      show _ ∈ [_]
      exact List.mem_singleton.2 (by decide +kernel))
  rcases this with h | h
  · cases h
  · exact h 2 rfl

/-- **C72** fails for `log(…, exception=x)` when `x` is not the exception being handled: type and message are those of `x`, traceback
and local variables those of the other one. -/
theorem C72_exception_kept_from_before_fails :
    ¬ ∀ (env : TbEnv) (_ : env.cutting = true) (k : Nat) (c : TbCode) (s : TbState) (r : TbRecord),
      r ∈ (runTb env (.user k) c s).2.records → r ∉ s.records → r.auto = none →
      ∃ fr body other tb, LogsByHand fr body other (.user k) c ∧ natural fr body = some (r.exc, tb) ∧
        (∀ text, env.dumps (tb.map env.format) = some text → r.traceback = some text) := by
  intro h
  obtain ⟨fr, body, other, tb, h1, h2, _⟩ := h (tbEnv true true) rfl 1
    (.handler (.raise 8) true (some 7) .swallow .done) ⟨[], []⟩
    ⟨none, 7, some " 1".toList, some "v1".toList⟩ (by show _ ∈ [_]; exact List.mem_singleton.2 rfl) (by simp) rfl
  cases h1 with
  | here => simp [natural] at h2
  | inTry h => cases h
  | afterTry h => cases h

example : LogsByHand (.user 1) (.raise 8) none (.user 1) (.handler (.raise 8) true none .swallow .done) := .here _ _

end Polog
