import Verif.LogItem.Lemmas

/-! C89: a log reads as a dictionary. -/

namespace Polog

variable {V : Type}

/-- **C89**: a log answers like a dictionary that holds what the log was given, or nothing if it was given nothing. -/
theorem C89_log_reads_as_a_dictionary (l : LogItem V) (h : ∀ d, l.fields = some d → Dict.WF d) :
    LogSpec.Answers (fun o => (l.op o).2) (match l.fields with | none => [] | some d => d) := by
  obtain ⟨f⟩ := l
  cases f with
  | none =>
    exact ⟨List.nodup_nil, rfl, rfl, rfl, rfl, rfl, fun k v hk => (nomatch hk), fun k _ => ⟨rfl, rfl, rfl, fun _ => rfl⟩⟩
  | some d =>
    have hd := h d rfl
    refine ⟨hd, rfl, rfl, rfl, rfl, rfl, fun k v hk => ?_, fun k hk => ?_⟩
    · have hg := (Dict.mem_iff_get? hd k v).1 hk
      simp [LogItem.op, hg, Dict.has]
    · have hg := (Dict.get?_eq_none_iff k d).2 hk
      simp [LogItem.op, hg, Dict.has]

/-- **C89**: so a handler that reads a log in any way, after any other handlers, gets these answers; nothing it does before
changes them. -/
theorem C89_reads_the_same_every_time {H E : Type} (body : H → Prog V E) (hs : List H) (l : LogItem V) (ops : List (LogOp V))
    (o : LogOp V) :
    (((ops.foldl (fun x p => (x.op p).1) (callHandlers body hs l).1).op o).2) = (l.op o).2 := by
  have h1 : (callHandlers body hs l).1 = l := by rw [callHandlers_eq]
  have h2 : ∀ (ops : List (LogOp V)) (x : LogItem V), ops.foldl (fun x p => (x.op p).1) x = x := by
    intro ops
    induction ops with
    | nil => intro x; rfl
    | cons p ops ih => intro x; rw [List.foldl_cons, LogItem.op_fst, ih]
  rw [h1, h2]

/-- A log with two fields. -/
example : LogSpec.Answers (fun o => ((⟨some [("level".toList, 3), ("message".toList, 7)]⟩ : LogItem Nat).op o).2)
    [("level".toList, 3), ("message".toList, 7)] :=
  C89_log_reads_as_a_dictionary _ (by rintro d ⟨⟩; unfold Dict.WF; decide)

end Polog
