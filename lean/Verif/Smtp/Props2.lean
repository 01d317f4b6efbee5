import Verif.Smtp.Spec
import Mathlib.Data.List.Perm.Subperm
import Mathlib.Algebra.Order.Group.Multiset
import Mathlib.Tactic.Abel
import Mathlib.Tactic.ByContra

/-! C61: letters sent by several workers. -/

namespace Polog

open MailSpec

variable {T M : Type} [DecidableEq T]

@[simp] theorem SmtpSys.go_self (s : SmtpSys T M) (t : T) (p : SendPc M) : s.go t p t = p := by
  simp [SmtpSys.go]

theorem SmtpSys.go_ne (s : SmtpSys T M) {t u : T} (p : SendPc M) (h : u ≠ t) : s.go t p u = s.pc u := by
  simp [SmtpSys.go, h]

/-- The letters of a list of threads. -/
def inHands (pc : T → SendPc M) (ts : List T) : List M := ts.filterMap fun t => underway (pc t)

omit [DecidableEq T] in
theorem inHands_congr {pc pc' : T → SendPc M} {ts : List T} (h : ∀ t ∈ ts, underway (pc t) = underway (pc' t)) :
    inHands pc ts = inHands pc' ts := by
  unfold inHands
  induction ts with
  | nil => rfl
  | cons t ts ih =>
    rw [List.filterMap_cons, List.filterMap_cons, h t (by simp), ih (fun u hu => h u (by simp [hu]))]

/-- Changing one thread's letter. -/
theorem inHands_change {pc pc' : T → SendPc M} {ts : List T} (hnd : ts.Nodup) (t : T) (ht : t ∈ ts)
    (h : ∀ u, u ≠ t → underway (pc u) = underway (pc' u)) :
    ((underway (pc' t)).toList ++ inHands pc ts).Perm ((underway (pc t)).toList ++ inHands pc' ts) := by
  induction ts with
  | nil => cases ht
  | cons u ts ih =>
    rw [List.nodup_cons] at hnd
    have e : ∀ (q : T → SendPc M), inHands q (u :: ts) = (underway (q u)).toList ++ inHands q ts := by
      intro q
      unfold inHands
      rw [List.filterMap_cons]
      cases underway (q u) <;> rfl
    rw [e, e]
    by_cases hu : u = t
    · subst hu
      rw [inHands_congr (fun v hv => h v (fun hc => hnd.1 (hc ▸ hv)))]
      rw [← List.append_assoc, ← List.append_assoc]
      exact List.Perm.append_right _ List.perm_append_comm
    · have ht : t ∈ ts := by
        rcases List.mem_cons.1 ht with h | h
        · exact absurd h.symm hu
        · exact h
      have ih := ih hnd.2 ht
      rw [h u hu]
      refine List.Perm.trans (List.perm_append_comm_assoc _ _ _) ?_
      refine List.Perm.trans ?_ (List.perm_append_comm_assoc _ _ _)
      exact List.Perm.append_left _ ih

/-- The bookkeeping of letters; `both`: those that were delivered and reported. -/
def Book (lost : Bool) (s : SmtpSys T M) : Prop :=
  ∃ (ts : List T) (both : List M), ts.Nodup ∧ (∀ t, s.pc t ≠ .idle → t ∈ ts) ∧
    (s.begun ++ both).Perm (s.sent ++ s.failed ++ inHands s.pc ts) ∧ both.Subperm s.sent ∧ both.Subperm s.failed ∧
    (lost = false → both = [])

theorem inHands_extend {pc : T → SendPc M} {ts : List T} (hi : ∀ t, pc t ≠ .idle → t ∈ ts) (t : T)
    (hnd : ts.Nodup) : ∃ ts', ts'.Nodup ∧ t ∈ ts' ∧ (∀ u, pc u ≠ .idle → u ∈ ts') ∧
      inHands pc ts' = inHands pc ts := by
  by_cases ht : t ∈ ts
  · exact ⟨ts, hnd, ht, hi, rfl⟩
  · refine ⟨t :: ts, List.nodup_cons.2 ⟨ht, hnd⟩, by simp, fun u hu => by simp [hi u hu], ?_⟩
    have : pc t = .idle := by
      by_contra hc
      exact ht (hi t hc)
    unfold inHands
    rw [List.filterMap_cons, this]
    rfl

theorem book_step_aux {lost : Bool} {s : SmtpSys T M} (hb : Book lost s) (t : T) (p : SendPc M) (b f r x : List M)
    (h : (b ++ x ++ (underway (s.pc t)).toList).Perm ((r ++ f) ++ (underway p).toList)) (hr : x.Subperm r) (hf : x.Subperm f)
    (hx : lost = false → x = []) :
    ∃ (ts : List T) (both : List M), ts.Nodup ∧ (∀ u, s.go t p u ≠ .idle → u ∈ ts) ∧
      (s.begun ++ b ++ both).Perm ((s.sent ++ r) ++ (s.failed ++ f) ++ inHands (s.go t p) ts) ∧
      both.Subperm (s.sent ++ r) ∧ both.Subperm (s.failed ++ f) ∧ (lost = false → both = []) := by
  obtain ⟨ts0, both, hnd0, hi0, hp0, hb1, hb2, hb3⟩ := hb
  obtain ⟨ts, hnd, ht, hi, heq⟩ := inHands_extend hi0 t hnd0
  rw [← heq] at hp0
  refine ⟨ts, both ++ x, hnd, ?_, ?_, hb1.append hr, hb2.append hf, fun e => by rw [hb3 e, hx e]; rfl⟩
  · intro u hu
    by_cases hut : u = t
    · rw [hut]; exact ht
    · rw [s.go_ne p hut] at hu; exact hi u hu
  · have hc := inHands_change (pc := s.pc) (pc' := s.go t p) hnd t ht (fun u hu => by rw [s.go_ne p hu])
    rw [s.go_self] at hc
    rw [← Multiset.coe_eq_coe] at hp0 hc h ⊢
    simp only [← Multiset.coe_add] at hp0 hc h ⊢
    have : (↑s.begun + ↑b + (↑both + ↑x) : Multiset M) + (↑(underway p).toList + ↑(underway (s.pc t)).toList) =
        (↑s.sent + ↑r + (↑s.failed + ↑f) + ↑(inHands (s.go t p) ts)) +
          (↑(underway p).toList + ↑(underway (s.pc t)).toList) := by
      calc (↑s.begun + ↑b + (↑both + ↑x) : Multiset M) + (↑(underway p).toList + ↑(underway (s.pc t)).toList)
          = (↑s.begun + ↑both) + ↑(underway p).toList + (↑b + ↑x + ↑(underway (s.pc t)).toList) := by abel
        _ = (↑s.begun + ↑both) + ↑(underway p).toList + (↑r + ↑f + ↑(underway p).toList) := by rw [h]
        _ = ↑s.sent + ↑s.failed + (↑(underway p).toList + ↑(inHands s.pc ts)) +
            (↑r + ↑f + ↑(underway p).toList) := by rw [hp0]; abel
        _ = ↑s.sent + ↑s.failed + (↑(underway (s.pc t)).toList + ↑(inHands (s.go t p) ts)) +
            (↑r + ↑f + ↑(underway p).toList) := by rw [hc]
        _ = _ := by abel
    exact add_right_cancel this

theorem book_step {faults lost : Bool} {s s' : SmtpSys T M} (hb : Book lost s) (h : SendStep faults lost s s') : Book lost s' := by
  have nil : ∀ l : List M, ([] : List M).Subperm l := fun l => List.nil_subperm
  cases h with
  | call t m h =>
    obtain ⟨ts, bo, h1, h2, h3, h4⟩ := book_step_aux hb t (.begin m) [m] [] [] [] (by simp [h, underway]) (nil _) (nil _) (fun _ => rfl)
    exact ⟨ts, bo, h1, h2, by simpa using h3, by simpa using h4⟩
  | create t m h =>
    obtain ⟨ts, bo, h1, h2, h3, h4⟩ := book_step_aux hb t (.created m) [] [] [] [] (by simp [h, underway]) (nil _) (nil _) (fun _ => rfl)
    exact ⟨ts, bo, h1, h2, by simpa using h3, by simpa using h4⟩
  | createFails t m h _ =>
    obtain ⟨ts, bo, h1, h2, h3, h4⟩ := book_step_aux hb t .idle [] [m] [] [] (by simp [h, underway]) (nil _) (nil _) (fun _ => rfl)
    exact ⟨ts, bo, h1, h2, by simpa using h3, by simpa using h4⟩
  | login t m c h _ _ =>
    obtain ⟨ts, bo, h1, h2, h3, h4⟩ := book_step_aux hb t (.logged m) [] [] [] [] (by simp [h, underway]) (nil _) (nil _) (fun _ => rfl)
    exact ⟨ts, bo, h1, h2, by simpa using h3, by simpa using h4⟩
  | loginFails t m h _ =>
    obtain ⟨ts, bo, h1, h2, h3, h4⟩ := book_step_aux hb t .idle [] [m] [] [] (by simp [h, underway]) (nil _) (nil _) (fun _ => rfl)
    exact ⟨ts, bo, h1, h2, by simpa using h3, by simpa using h4⟩
  | mail t m h _ =>
    obtain ⟨ts, bo, h1, h2, h3, h4⟩ := book_step_aux hb t (.mailed m) [] [] [m] [] (by simp [h, underway]) (nil _) (nil _) (fun _ => rfl)
    exact ⟨ts, bo, h1, h2, by simpa using h3, by simpa using h4⟩
  | mailFails t m h _ =>
    obtain ⟨ts, bo, h1, h2, h3, h4⟩ := book_step_aux hb t .idle [] [m] [] [] (by simp [h, underway]) (nil _) (nil _) (fun _ => rfl)
    exact ⟨ts, bo, h1, h2, by simpa using h3, by simpa using h4⟩
  | mailUnanswered t m h _ hl =>
    obtain ⟨ts, bo, h1, h2, h3, h4⟩ := book_step_aux hb t .idle [] [m] [m] [m] (by simp [h, underway]) (List.Subperm.refl _)
      (List.Subperm.refl _) (fun e => by rw [hl] at e; cases e)
    exact ⟨ts, bo, h1, h2, by simpa using h3, h4⟩
  | quit t m c h _ =>
    obtain ⟨ts, bo, h1, h2, h3, h4⟩ := book_step_aux hb t .idle [] [] [] [] (by simp [h, underway]) (nil _) (nil _) (fun _ => rfl)
    exact ⟨ts, bo, h1, h2, by simpa using h3, by simpa using h4⟩

theorem book {faults lost : Bool} {s : SmtpSys T M} (hr : SendReach faults lost s) : Book lost s := by
  induction hr with
  | init => exact ⟨[], [], by simp, fun t h => absurd rfl h, by simp [SmtpSys.init, inHands], List.nil_subperm, List.nil_subperm, fun _ => rfl⟩
  | step _ hs ih => exact book_step ih hs

/-- **C61**: whatever the schedule and the failures of the server are, when no call of `send` is running
every letter given to `send` was delivered once, or its call ended with an exception (so that the log goes
to `alt`), and never both.

Partial: if no answer of the server is lost. -/
theorem C61_every_letter_sent_or_reported_partial {faults : Bool} {s : SmtpSys T M} (hr : SendReach faults false s)
    (hq : ∀ t, s.pc t = .idle) : s.begun.Perm (s.sent ++ s.failed) := by
  obtain ⟨ts, both, _, _, hp, _, _, hb⟩ := book hr
  have : inHands s.pc ts = [] := by
    unfold inHands
    rw [List.filterMap_eq_nil_iff]
    intro t _
    rw [hq t]; rfl
  rw [this, List.append_nil, hb rfl, List.append_nil] at hp
  exact hp

/-- **C61**: at any moment, too, nothing is delivered twice, or delivered and reported, if the letters
are different.

Partial: if no answer of the server is lost. -/
theorem C61_no_letter_twice_partial {faults : Bool} {s : SmtpSys T M} (hr : SendReach faults false s)
    (hd : s.begun.Nodup) : (s.sent ++ s.failed).Nodup ∧ ∀ m ∈ s.sent ++ s.failed, m ∈ s.begun := by
  obtain ⟨ts, both, _, _, hp, _, _, hb⟩ := book hr
  rw [hb rfl, List.append_nil] at hp
  have h1 := hp.nodup_iff.1 hd
  exact ⟨(List.nodup_append.1 h1).1, fun m hm => hp.mem_iff.2 (List.mem_append_left _ hm)⟩

/-- What is added to both sides of a sum of lists can be taken away. -/
theorem subperm_of_add {a b c d : List M} (h : (a ++ b).Perm (c ++ d)) (hb : b.Subperm d) : c.Subperm a := by
  rw [← Multiset.coe_le]
  have h' : (a : Multiset M) + b = c + d := by
    rw [Multiset.coe_add, Multiset.coe_add]; exact Multiset.coe_eq_coe.2 h
  have hb' : (b : Multiset M) ≤ d := Multiset.coe_le.2 hb
  have : (c : Multiset M) + b ≤ a + b := by rw [h']; exact Multiset.add_le_add_left hb'
  exact (Multiset.add_le_add_iff_right).1 this

/-- **C61**: whatever the schedule and the failures of the server are, answers that are lost included: no letter is delivered more
often than it was given to `send`, none is reported more often, and at rest every letter was delivered or reported. -/
theorem C61_no_letter_is_forgotten {faults lost : Bool} {s : SmtpSys T M} (hr : SendReach faults lost s) :
    s.sent.Subperm s.begun ∧ s.failed.Subperm s.begun ∧
    ((∀ t, s.pc t = .idle) → s.begun.Subperm (s.sent ++ s.failed)) := by
  obtain ⟨ts, both, _, _, hp, h1, h2, _⟩ := book hr
  refine ⟨subperm_of_add (d := s.failed ++ inHands s.pc ts) (by simpa using hp) (h2.trans (List.sublist_append_left _ _).subperm),
    subperm_of_add (d := s.sent ++ inHands s.pc ts) (hp.trans ?_) (h1.trans (List.sublist_append_left _ _).subperm), fun hq => ?_⟩
  · rw [← List.append_assoc]
    exact List.Perm.append_right _ List.perm_append_comm
  · have : inHands s.pc ts = [] := by
      unfold inHands
      rw [List.filterMap_eq_nil_iff]
      intro t _
      rw [hq t]; rfl
    rw [this, List.append_nil] at hp
    exact (List.sublist_append_left _ _).subperm.trans hp.subperm

/-- **C61 fails** when an answer of the server is lost: the letter has arrived, and its log goes to `alt` as well. -/
theorem C61_never_both_fails : ∃ s : SmtpSys Unit Nat, SendReach false true s ∧ (∀ t, s.pc t = .idle) ∧
    s.begun = [1] ∧ s.sent = [1] ∧ s.failed = [1] := by
  have r : SendReach false true (SmtpSys.init : SmtpSys Unit Nat) := .init
  have r := r.step (.call _ () 1 rfl)
  have r := r.step (.create _ () 1 rfl)
  have r := r.step (.login _ () 1 0 rfl rfl (by simp [SmtpSys.init]))
  have r := r.step (.mailUnanswered _ () 1 rfl rfl rfl)
  exact ⟨_, r, fun t => by cases t; rfl, rfl, rfl, rfl⟩

theorem hasConn {faults lost : Bool} {s : SmtpSys T M} (hr : SendReach faults lost s) :
    (∀ c, s.server = some c → c < s.conns.length) ∧ ∀ t, s.server = none → s.pc t = .idle ∨ ∃ m, s.pc t = .begin m := by
  induction hr with
  | init => exact ⟨(fun c h => nomatch h), fun t _ => .inl rfl⟩
  | step _ hs ih =>
    cases hs <;> simp only [SmtpSys.go] <;> grind

/-- All connections but perhaps the last one are closed; the last one is in the given state and is the
one in `_server`. -/
def Conns (s : SmtpSys T M) (last : Option ConnState) : Prop :=
  ∃ old : List ConnState, (∀ x ∈ old, x = .closed) ∧
    match last with
    | none => s.conns = old
    | some x => s.conns = old ++ [x] ∧ s.server = some old.length

/-- Sequential use of a working server: where the only active thread is. -/
inductive SeqShape (s : SmtpSys T M) : Prop
  | rest (h : ∀ t, s.pc t = .idle) (hb : s.begun = s.sent) (hc : Conns s none)
  | begin (t : T) (m : M) (ht : s.pc t = .begin m) (h : ∀ u, u ≠ t → s.pc u = .idle)
      (hb : s.begun = s.sent ++ [m]) (hc : Conns s none)
  | created (t : T) (m : M) (ht : s.pc t = .created m) (h : ∀ u, u ≠ t → s.pc u = .idle)
      (hb : s.begun = s.sent ++ [m]) (hc : Conns s (some .fresh))
  | logged (t : T) (m : M) (ht : s.pc t = .logged m) (h : ∀ u, u ≠ t → s.pc u = .idle)
      (hb : s.begun = s.sent ++ [m]) (hc : Conns s (some .ready))
  | mailed (t : T) (m : M) (ht : s.pc t = .mailed m) (h : ∀ u, u ≠ t → s.pc u = .idle)
      (hb : s.begun = s.sent) (hc : Conns s (some .ready))

omit [DecidableEq T] in
/-- In each shape at most one thread is active, and it is in this state. -/
theorem seq_pc {s : SmtpSys T M} (hs : SeqShape s) {t : T} (h : s.pc t ≠ .idle) :
    (∀ u, u ≠ t → s.pc u = .idle) ∧
    match s.pc t with
    | .idle => False
    | .begin m => s.begun = s.sent ++ [m] ∧ Conns s none
    | .created m => s.begun = s.sent ++ [m] ∧ Conns s (some .fresh)
    | .logged m => s.begun = s.sent ++ [m] ∧ Conns s (some .ready)
    | .mailed _ => s.begun = s.sent ∧ Conns s (some .ready) := by
  cases hs with
  | rest hi => exact absurd (hi t) h
  | begin t' m ht ho hb hc =>
    have : t = t' := by_contra fun hn => h (ho t hn)
    subst this
    rw [ht]
    exact ⟨ho, hb, hc⟩
  | created t' m ht ho hb hc =>
    have : t = t' := by_contra fun hn => h (ho t hn)
    subst this
    rw [ht]
    exact ⟨ho, hb, hc⟩
  | logged t' m ht ho hb hc =>
    have : t = t' := by_contra fun hn => h (ho t hn)
    subst this
    rw [ht]
    exact ⟨ho, hb, hc⟩
  | mailed t' m ht ho hb hc =>
    have : t = t' := by_contra fun hn => h (ho t hn)
    subst this
    rw [ht]
    exact ⟨ho, hb, hc⟩

omit [DecidableEq T] in
theorem conns_conn {s : SmtpSys T M} {x : ConnState} (h : Conns s (some x)) : s.conn = some x := by
  obtain ⟨old, _, h1, h2⟩ := h
  unfold SmtpSys.conn
  rw [h2, h1]
  simp

theorem seq_step {s s' : SmtpSys T M} (hs : SeqShape s) (hf : s.failed = []) (h : SendStep false false s s')
    (h1 : ∀ t u, s'.pc t ≠ .idle → s'.pc u ≠ .idle → t = u) : SeqShape s' ∧ s'.failed = [] := by
  cases h with
  | call t m h =>
    have ho : ∀ u, u ≠ t → s.pc u = .idle := by
      intro u hu
      by_contra hc
      have := h1 u t (by simpa [s.go_ne _ hu] using hc) (by simp)
      exact hu this
    have hi : ∀ u, s.pc u = .idle := fun u => by
      by_cases hu : u = t
      · rw [hu]; exact h
      · exact ho u hu
    cases hs with
    | rest _ hb hc =>
      refine ⟨.begin t m (by simp) (fun u hu => by simp [s.go_ne _ hu, ho u hu]) (by simp [hb]) hc, hf⟩
    | begin t' _ ht => rw [hi t'] at ht; cases ht
    | created t' _ ht => rw [hi t'] at ht; cases ht
    | logged t' _ ht => rw [hi t'] at ht; cases ht
    | mailed t' _ ht => rw [hi t'] at ht; cases ht
  | create t m h =>
    obtain ⟨ho, hx⟩ := seq_pc hs (t := t) (by rw [h]; simp)
    rw [h] at hx
    obtain ⟨hb, old, hold, hc⟩ := hx
    refine ⟨.created t m (by simp) (fun u hu => by simp [s.go_ne _ hu, ho u hu]) hb ⟨old, hold, ?_, ?_⟩, hf⟩
    · simp [show s.conns = old from hc]
    · simp [show s.conns = old from hc]
  | createFails t m h hff => cases hff
  | login t m c h hsv hcl =>
    obtain ⟨ho, hx⟩ := seq_pc hs (t := t) (by rw [h]; simp)
    rw [h] at hx
    obtain ⟨hb, old, hold, hc, hs2⟩ := hx
    rw [hs2] at hsv
    cases hsv
    exact ⟨.logged t m (by simp) (fun u hu => by simp [s.go_ne _ hu, ho u hu]) hb
      ⟨old, hold, by simp [hc], hs2⟩, hf⟩
  | loginFails t m h hcl =>
    obtain ⟨ho, hx⟩ := seq_pc hs (t := t) (by rw [h]; simp)
    rw [h] at hx
    rw [conns_conn hx.2] at hcl
    simp at hcl
  | mail t m h hcn =>
    obtain ⟨ho, hx⟩ := seq_pc hs (t := t) (by rw [h]; simp)
    rw [h] at hx
    exact ⟨.mailed t m (by simp) (fun u hu => by simp [s.go_ne _ hu, ho u hu]) hx.1 hx.2, hf⟩
  | mailFails t m h hcn =>
    obtain ⟨ho, hx⟩ := seq_pc hs (t := t) (by rw [h]; simp)
    rw [h] at hx
    rw [conns_conn hx.2] at hcn
    simp at hcn
  | mailUnanswered t m h hcn hl => cases hl
  | quit t m c h hsv =>
    obtain ⟨ho, hx⟩ := seq_pc hs (t := t) (by rw [h]; simp)
    rw [h] at hx
    obtain ⟨hb, old, hold, hc, hs2⟩ := hx
    rw [hs2] at hsv
    cases hsv
    refine ⟨.rest (fun u => ?_) hb ⟨old ++ [.closed], ?_, by simp [hc]⟩, hf⟩
    · by_cases hu : u = t
      · simp [hu]
      · simp [s.go_ne _ hu, ho u hu]
    · intro x hx
      rcases List.mem_append.1 hx with h | h
      · exact hold x h
      · exact List.mem_singleton.1 h

theorem seqShape {s : SmtpSys T M} (hr : SendReach1 false false s) : SeqShape s ∧ s.failed = [] := by
  induction hr with
  | init => exact ⟨.rest (fun _ => rfl) rfl ⟨[], by simp, rfl⟩, rfl⟩
  | step _ hs h1 ih => exact seq_step ih.1 ih.2 hs h1

/-- **C61**, when no two calls of `send` overlap and the server works: no call fails, and whenever none is
running all letters have been delivered, in the order of the calls, and every connection is closed. -/
theorem C61_sequential_sending_delivers_partial {s : SmtpSys T M} (hr : SendReach1 false false s) :
    s.failed = [] ∧
    ((∀ t, s.pc t = .idle) → s.sent = s.begun ∧ ∀ x ∈ s.conns, x = .closed) := by
  obtain ⟨hs, hf⟩ := seqShape hr
  refine ⟨hf, fun hi => ?_⟩
  cases hs with
  | rest _ hb hc =>
    obtain ⟨old, hold, h⟩ := hc
    exact ⟨hb.symm, by rw [show s.conns = old from h]; exact hold⟩
  | begin t' _ ht => rw [hi t'] at ht; cases ht
  | created t' _ ht => rw [hi t'] at ht; cases ht
  | logged t' _ ht => rw [hi t'] at ht; cases ht
  | mailed t' _ ht => rw [hi t'] at ht; cases ht

/-- **C61** for one worker (`pool_size=1`): no assumption on the schedule is needed. -/
theorem C61_one_worker_delivers_partial [Subsingleton T] {s : SmtpSys T M} (hr : SendReach false false s) :
    s.failed = [] ∧
    ((∀ t, s.pc t = .idle) → s.sent = s.begun ∧ ∀ x ∈ s.conns, x = .closed) := by
  apply C61_sequential_sending_delivers_partial
  induction hr with
  | init => exact .init
  | step _ hs ih => exact .step ih hs fun t u _ _ => Subsingleton.elim t u

/-- **C61**: sending one letter at a time never gets stuck: a running call can always go on (with a
working server). -/
theorem C61_sequential_sending_goes_on {s : SmtpSys T M} (hr : SendReach1 false false s) (t : T)
    (h : s.pc t ≠ .idle) : ∃ s', SendStep false false s s' ∧ s'.pc t ≠ s.pc t := by
  obtain ⟨ho, hx⟩ := seq_pc (seqShape hr).1 h
  cases hp : s.pc t with
  | idle => exact absurd hp h
  | begin m => exact ⟨_, .create s t m hp, by simp⟩
  | created m =>
    rw [hp] at hx
    obtain ⟨_, old, _, hc, hs⟩ := hx
    exact ⟨_, .login s t m _ hp hs (by simp [hc]), by simp⟩
  | logged m =>
    rw [hp] at hx
    exact ⟨_, .mail s t m hp (conns_conn hx.2), by simp⟩
  | mailed m =>
    rw [hp] at hx
    obtain ⟨_, old, _, hc, hs⟩ := hx
    exact ⟨_, .quit s t m _ hp hs, by simp⟩

/-- What a thread in `send` has before it. -/
def stepsLeft : SendPc M → Nat
  | .idle => 0
  | .begin _ => 4
  | .created _ => 3
  | .logged _ => 2
  | .mailed _ => 1

/-- **C61**: sending never gets stuck, with any number of workers, any schedule and any failures: a call of `send` that has begun
can always go on without waiting for other threads, and ends after at most four steps of its own. -/
theorem C61_every_call_ends {faults lost : Bool} {s : SmtpSys T M} (hr : SendReach faults lost s) (t : T) :
    (s.pc t ≠ .idle → ∃ s', SendStep faults lost s s' ∧ (∀ u, u ≠ t → s'.pc u = s.pc u) ∧ stepsLeft (s'.pc t) < stepsLeft (s.pc t)) ∧
    ∀ s', SendStep faults lost s s' → s'.pc t = s.pc t ∨ s.pc t = .idle ∨ stepsLeft (s'.pc t) < stepsLeft (s.pc t) := by
  obtain ⟨h1, h2⟩ := hasConn hr
  refine ⟨fun h => ?_, fun s' hs => ?_⟩
  · have other : ∀ (p : SendPc M) (u : T), u ≠ t → s.go t p u = s.pc u := fun p u hu => s.go_ne p hu
    cases hp : s.pc t with
    | idle => exact absurd hp h
    | begin m => exact ⟨_, .create s t m hp, other _, by simp [stepsLeft]⟩
    | created m =>
      cases hs : s.server with
      | none => rcases h2 t hs with e | ⟨_, e⟩ <;> (rw [hp] at e; cases e)
      | some c =>
        by_cases hc : s.conns[c]? = some .closed
        · exact ⟨_, .loginFails s t m hp (.inl (by simp [SmtpSys.conn, hs, hc])), other _, by simp [stepsLeft]⟩
        · exact ⟨_, .login s t m c hp hs hc, other _, by simp [stepsLeft]⟩
    | logged m =>
      cases hs : s.server with
      | none => rcases h2 t hs with e | ⟨_, e⟩ <;> (rw [hp] at e; cases e)
      | some c =>
        have hl : s.conn = some (s.conns[c]'(h1 c hs)) := by simp [SmtpSys.conn, hs, h1 c hs]
        cases hc : s.conns[c]'(h1 c hs) with
        | fresh => exact ⟨_, .mailFails s t m hp (.inr (.inl (hc ▸ hl))), other _, by simp [stepsLeft]⟩
        | closed => exact ⟨_, .mailFails s t m hp (.inl (hc ▸ hl)), other _, by simp [stepsLeft]⟩
        | ready => exact ⟨_, .mail s t m hp (hc ▸ hl), other _, by simp [stepsLeft]⟩
    | mailed m =>
      cases hs : s.server with
      | none => rcases h2 t hs with e | ⟨_, e⟩ <;> (rw [hp] at e; cases e)
      | some c => exact ⟨_, .quit s t m c hp hs, other _, by simp [stepsLeft]⟩
  · cases hs <;> simp only [SmtpSys.go] <;> grind [stepsLeft]

/-! ### Two workers -/

/-- Two workers, as by default: the first one finishes with the connection of the second one, whose letter
is lost although the server works. -/
theorem C61_working_server_gets_every_letter_fails :
    ¬ ∀ s : SmtpSys Bool Nat, SendReach false false s → s.failed = [] := by
  intro hall
  have r : SendReach false false (SmtpSys.init : SmtpSys Bool Nat) := .init
  have r := r.step (.call _ false 1 rfl)
  have r := r.step (.call _ true 2 rfl)
  have r := r.step (.create _ false 1 rfl)
  have r := r.step (.login _ false 1 0 rfl rfl (by simp [SmtpSys.init]))
  have r := r.step (.mail _ false 1 rfl rfl)
  have r := r.step (.create _ true 2 rfl)
  have r := r.step (.login _ true 2 1 rfl rfl (by simp [SmtpSys.init]))
  have r := r.step (.quit _ false 1 1 rfl rfl)
  have r := r.step (.mailFails _ true 2 rfl (.inl rfl))
  exact absurd (hall _ r) (by simp [SmtpSys.init])

/-- **C61** fails for the connections, too: in that run both calls end and the first connection stays
open for ever; and when the server refuses a letter its connection is never closed even with one worker. -/
theorem C61_connections_are_closed_fails :
    (¬ ∀ s : SmtpSys Bool Nat, SendReach false false s → (∀ t, s.pc t = .idle) → ∀ x ∈ s.conns, x = .closed) ∧
    (¬ ∀ s : SmtpSys Unit Nat, SendReach true false s → (∀ t, s.pc t = .idle) → ∀ x ∈ s.conns, x = .closed) := by
  constructor
  · intro hall
    have r : SendReach false false (SmtpSys.init : SmtpSys Bool Nat) := .init
    have r := r.step (.call _ false 1 rfl)
    have r := r.step (.call _ true 2 rfl)
    have r := r.step (.create _ false 1 rfl)
    have r := r.step (.login _ false 1 0 rfl rfl (by simp [SmtpSys.init]))
    have r := r.step (.mail _ false 1 rfl rfl)
    have r := r.step (.create _ true 2 rfl)
    have r := r.step (.login _ true 2 1 rfl rfl (by simp [SmtpSys.init]))
    have r := r.step (.quit _ false 1 1 rfl rfl)
    have r := r.step (.mailFails _ true 2 rfl (.inl rfl))
    have := hall _ r (by intro t; cases t <;> rfl) .ready (by simp [SmtpSys.init])
    cases this
  · intro hall
    have r : SendReach true false (SmtpSys.init : SmtpSys Unit Nat) := .init
    have r := r.step (.call _ () 1 rfl)
    have r := r.step (.create _ () 1 rfl)
    have r := r.step (.login _ () 1 0 rfl rfl (by simp [SmtpSys.init]))
    have r := r.step (.mailFails _ () 1 rfl (.inr (.inr rfl)))
    have := hall _ r (by intro t; cases t; rfl) .ready (by simp [SmtpSys.init])
    cases this

/-- A complete sequential run of two letters by two threads. -/
example : ∃ s : SmtpSys Bool Nat, SendReach1 false false s ∧ s.begun = [1, 2] ∧ ∀ t, s.pc t = .idle := by
  have r : SendReach1 false false (SmtpSys.init : SmtpSys Bool Nat) := .init
  have r := r.step (.call _ false 1 rfl) (by decide)
  have r := r.step (.create _ false 1 rfl) (by decide)
  have r := r.step (.login _ false 1 0 rfl rfl (by simp [SmtpSys.init])) (by decide)
  have r := r.step (.mail _ false 1 rfl rfl) (by decide)
  have r := r.step (.quit _ false 1 0 rfl rfl) (by decide)
  have r := r.step (.call _ true 2 rfl) (by decide)
  have r := r.step (.create _ true 2 rfl) (by decide)
  have r := r.step (.login _ true 2 1 rfl rfl (by simp [SmtpSys.init])) (by decide)
  have r := r.step (.mail _ true 2 rfl rfl) (by decide)
  have r := r.step (.quit _ true 2 1 rfl rfl) (by decide)
  exact ⟨_, r, rfl, by decide⟩

end Polog
