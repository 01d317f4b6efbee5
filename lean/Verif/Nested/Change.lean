import Verif.Nested.Props

/-!
C93: settings changed by handlers.

A handler may call `config.set(pool_size=…)`. No log is lost by that (C91). The call is completed when nothing else is going
on. It stops the program for ever if a log waits in the queue of the only worker, if two handlers do it at once, and if
with the synchronous engine the log was written during another change.
-/

namespace Polog

open NestedSpec Nst

namespace Nst

theorem leads_trans {s s' s'' : NState} (h : Leads s s') (h' : Leads s' s'') : Leads s s'' := by
  induction h with
  | here s => exact h'
  | step b hs _ ih => exact .step b hs (ih h')

theorem leads_one {s s' : NState} (b : Bool) (h : NStep b s s') : Leads s s' := .step b h (.here _)

/-- What the engine numbers held by threads refer to. -/
def KnownThread (es : List NEng) (t : NThread) : Prop :=
  (∀ x k, t.pc = .rPoll x k → ∃ e, es[k]? = some e) ∧
  (∀ x k, t.pc = .rJoin x k → ∃ e, es[k]? = some e ∧ e.flag = true) ∧
  (∀ k, t.kind = .worker k → ∃ e, es[k]? = some e)

structure Known (s : NState) : Prop where
  some : s.sh.engines ≠ []
  thr : ∀ t ∈ s.threads, KnownThread s.sh.engines t

/-- Engines are never removed and their flags never taken back. -/
def Grows (es es' : List NEng) : Prop :=
  ∀ (k : Nat) (e : NEng), es[k]? = some e → ∃ e' : NEng, es'[k]? = some e' ∧ (e.flag = true → e'.flag = true)

theorem Grows.refl (es : List NEng) : Grows es es := fun _ e h => ⟨e, h, id⟩

theorem grows_set {es : List NEng} {k : Nat} {e e' : NEng} (h : es[k]? = some e) (hf : e.flag = true → e'.flag = true) :
    Grows es (es.set k e') := by
  intro j d hd
  have hk : k < es.length := by
    refine Classical.byContradiction (fun hn => ?_)
    rw [List.getElem?_eq_none (by omega)] at h; simp at h
  by_cases hj : k = j
  · subst hj
    rw [h] at hd
    cases hd
    exact ⟨e', by simp [hk], hf⟩
  · exact ⟨d, by rw [List.getElem?_set_ne hj]; exact hd, id⟩

theorem grows_append (es new : List NEng) : Grows es (es ++ new) := by
  intro k e h
  have hk : k < es.length := by
    refine Classical.byContradiction (fun hn => ?_)
    rw [List.getElem?_eq_none (by omega)] at h; simp at h
  exact ⟨e, by rw [List.getElem?_append_left hk]; exact h, id⟩

theorem known_grows {es es' : List NEng} {t : NThread} (h : KnownThread es t) (hg : Grows es es') : KnownThread es' t := by
  obtain ⟨h1, h2, h3⟩ := h
  refine ⟨fun x k e => ?_, fun x k e => ?_, fun k e => ?_⟩
  · obtain ⟨d, hd⟩ := h1 x k e; obtain ⟨d', hd', _⟩ := hg k d hd; exact ⟨d', hd'⟩
  · obtain ⟨d, hd, hf⟩ := h2 x k e; obtain ⟨d', hd', hf'⟩ := hg k d hd; exact ⟨d', hd', hf' hf⟩
  · obtain ⟨d, hd⟩ := h3 k e; obtain ⟨d', hd', _⟩ := hg k d hd; exact ⟨d', hd'⟩

theorem grows_ne {es es' : List NEng} (h : es ≠ []) (hg : Grows es es') : es' ≠ [] := by
  cases es with
  | nil => exact absurd rfl h
  | cons e es =>
    obtain ⟨e', he', _⟩ := hg 0 e rfl
    rintro rfl
    simp at he'

theorem work_known {sh sh' : NShared} {a a' : NThread} (h : NWork sh a sh' a') (hk : KnownThread sh.engines a) :
    Grows sh.engines sh'.engines ∧ KnownThread sh'.engines a' := by
  have hkind := work_kind h
  have hg : Grows sh.engines sh'.engines := by
    cases h with
    | handPool kd fs l lk k e he hs room => exact grows_set he id
    | take k e l q he hq => exact grows_set he id
    | _ => exact Grows.refl _
  have hpc : ∀ x k, a'.pc ≠ .rPoll x k ∧ a'.pc ≠ .rJoin x k := by
    intro x k
    cases h <;> simp [nCall] <;> split <;> simp
  refine ⟨hg, fun x k e => absurd e (hpc x k).1, fun x k e => absurd e (hpc x k).2, fun k e => ?_⟩
  obtain ⟨d, hd⟩ := hk.2.2 k (by rw [← hkind]; exact e)
  obtain ⟨d', hd', _⟩ := hg k d hd
  exact ⟨d', hd'⟩

theorem admin_kind {pre post : List NThread} {sh sh' : NShared} {a a' : NThread} {new : List NThread}
    (h : NAdmin pre post sh a sh' a' new) : a'.kind = a.kind ∧ a'.frames = a.frames := by
  cases h <;> exact ⟨rfl, rfl⟩

theorem admin_known {pre post : List NThread} {sh sh' : NShared} {a a' : NThread} {new : List NThread}
    (h : NAdmin pre post sh a sh' a' new) (hk : KnownThread sh.engines a) :
    Grows sh.engines sh'.engines ∧ KnownThread sh'.engines a' ∧ ∀ t ∈ new, KnownThread sh'.engines t := by
  have hkind := (admin_kind h).1
  have hg : Grows sh.engines sh'.engines := by
    cases h with
    | drained kd fs exit k e he hq => exact grows_set he (fun _ => rfl)
    | load kd fs size cap => exact grows_append _ _
    | _ => exact Grows.refl _
  refine ⟨hg, ⟨?_, ?_, fun k e => ?_⟩, ?_⟩
  · intro x k e
    cases h with
    | stopPool kd fs exit j d hj hd hs => simp at e; obtain ⟨_, rfl⟩ := e; exact ⟨d, hd⟩
    | stopSingle kd fs exit j d hj hd hs => cases exit <;> simp at e
    | joined kd fs exit j hj => cases exit <;> simp at e
    | _ => simp at e
  · intro x k e
    cases h with
    | drained kd fs exit j d hd hq =>
      simp at e
      obtain ⟨_, rfl⟩ := e
      obtain ⟨d', hd', _⟩ := grows_set (e' := { d with flag := true }) hd (fun _ => rfl) j d hd
      refine ⟨{ d with flag := true }, ?_, rfl⟩
      have hlt : j < sh.engines.length := by
        refine Classical.byContradiction (fun hn => ?_)
        rw [List.getElem?_eq_none (by omega)] at hd; simp at hd
      simp [hlt]
    | stopSingle kd fs exit j d hj hd hs => cases exit <;> simp at e
    | joined kd fs exit j hj => cases exit <;> simp at e
    | _ => simp at e
  · obtain ⟨d, hd⟩ := hk.2.2 k (by rw [← hkind]; exact e)
    obtain ⟨d', hd', _⟩ := hg k d hd
    exact ⟨d', hd'⟩
  · intro t ht
    cases h with
    | load kd fs size cap =>
      obtain ⟨_, rfl⟩ := List.mem_replicate.mp ht
      refine ⟨by simp, by simp, fun k e => ?_⟩
      simp at e
      subst e
      exact ⟨_, by simp; rfl⟩
    | _ => simp at ht

theorem reach_known {ad : Bool} {clients size cap : Nat} {s : NState} (h : NReach ad (.start clients size cap) s) :
    Known s := by
  induction h with
  | init =>
    refine ⟨by simp [NState.start], fun t ht => ?_⟩
    simp only [NState.start, List.mem_append, List.mem_replicate] at ht
    rcases ht with ⟨_, rfl⟩ | ⟨_, rfl⟩
    · exact ⟨by simp, by simp, by simp⟩
    · refine ⟨by simp, by simp, fun k e => ?_⟩
      simp at e
      subst e
      exact ⟨_, rfl⟩
  | step b _ hs _ ih =>
    obtain ⟨h1, h2⟩ := ih
    cases hs with
    | work pre post sh sh' a a' h =>
      obtain ⟨hg, ha⟩ := work_known h (h2 a (by simp))
      refine ⟨grows_ne h1 hg, fun t ht => ?_⟩
      simp only [List.mem_append, List.mem_cons] at ht
      rcases ht with ht | rfl | ht
      · exact known_grows (h2 t (by simp [ht])) hg
      · exact ha
      · exact known_grows (h2 t (by simp [ht])) hg
    | admin pre post new sh sh' a a' h =>
      obtain ⟨hg, ha, hn⟩ := admin_known h (h2 a (by simp))
      refine ⟨grows_ne h1 hg, fun t ht => ?_⟩
      simp only [List.mem_append, List.mem_cons] at ht
      rcases ht with ht | rfl | ht | ht
      · exact known_grows (h2 t (by simp [ht])) hg
      · exact ha
      · exact known_grows (h2 t (by simp [ht])) hg
      · exact hn t ht

/-- What may have become of an idle thread while a pool is stopped. -/
def EndsAsWorker (k : Nat) (t t' : NThread) : Prop :=
  t'.kind = t.kind ∧ Idle t' ∧ (t.kind ≠ .worker k → t' = t) ∧ (t.kind = .worker k → t'.pc = .exited)

theorem worker_ends {sh : NShared} {k : Nat} {e : NEng} (he : sh.engines[k]? = some e) (hf : e.flag = true)
    (hq : e.queue = []) {t : NThread} (ht : Idle t) (pre post : List NThread) :
    ∃ t', EndsAsWorker k t t' ∧ Leads ⟨sh, pre ++ t :: post⟩ ⟨sh, pre ++ t' :: post⟩ := by
  by_cases hk : t.kind = .worker k
  · refine ⟨⟨.worker k, [], .exited⟩, ⟨hk.symm, ⟨rfl, .inr (.inr rfl)⟩, fun h => absurd hk h, fun _ => rfl⟩, ?_⟩
    obtain ⟨kd, fs, pc⟩ := t
    obtain ⟨hfs, hpc⟩ := ht
    simp only at hk hfs hpc
    subst hk hfs
    have hx : Leads ⟨sh, pre ++ ⟨.worker k, [], .expired⟩ :: post⟩ ⟨sh, pre ++ ⟨.worker k, [], .exited⟩ :: post⟩ :=
      leads_one false (.work _ _ _ _ _ _ (.exit sh k e he hf))
    rcases hpc with rfl | rfl | rfl
    · exact leads_trans (leads_one false (.work _ _ _ _ _ _ (.expire sh k e he hq))) hx
    · exact hx
    · exact .here _
  · exact ⟨t, ⟨rfl, ht, fun _ => rfl, fun h => absurd h hk⟩, .here _⟩

theorem all_end {sh : NShared} {k : Nat} {e : NEng} (he : sh.engines[k]? = some e) (hf : e.flag = true)
    (hq : e.queue = []) : ∀ (ts : List NThread), (∀ t ∈ ts, Idle t) → ∀ (pre post : List NThread),
    ∃ ts', (∀ t ∈ ts', Idle t ∧ (t.kind = .worker k → t.pc = .exited)) ∧
      Leads ⟨sh, pre ++ (ts ++ post)⟩ ⟨sh, pre ++ (ts' ++ post)⟩ := by
  intro ts
  induction ts with
  | nil => intro _ pre post; exact ⟨[], by simp, .here _⟩
  | cons t ts ih =>
    intro hi pre post
    obtain ⟨t', ⟨h1, h2, h3, h4⟩, hl⟩ := worker_ends he hf hq (hi t (by simp)) pre (ts ++ post)
    obtain ⟨ts', h5, h6⟩ := ih (fun x hx => hi x (by simp [hx])) (pre ++ [t']) post
    refine ⟨t' :: ts', ?_, ?_⟩
    · intro x hx
      rcases List.mem_cons.mp hx with rfl | hx
      · exact ⟨h2, fun hk => h4 (by rw [← h1]; exact hk)⟩
      · exact h5 x hx
    · refine leads_trans ?_ (by simpa using h6)
      simpa using hl

/-! ### The engine lock has one holder -/

def pcHolds : NPc → Nat
  | .fetch _ lk => if lk then 1 else 0
  | .hand _ _ lk => if lk then 1 else 0
  | .rSwap _ => 1
  | .rStop _ => 1
  | .rPoll _ _ => 1
  | .rJoin _ _ => 1
  | .rLoad => 1
  | .rUnblock => 1
  | .rRelease => 1
  | .ended => 1
  | _ => 0

def holds (t : NThread) : Nat := pcHolds t.pc + t.frames.countP (fun f => f.locked)

def free (sh : NShared) : Nat := if sh.lock then 0 else 1

theorem pcHolds_call (sh : NShared) (l : NLog) : pcHolds (nCall sh l) = 0 := by
  unfold nCall; split <;> rfl

/-- Holders and the free lock: always one together. The flag `blocked` is only changed by a holder. -/
theorem work_holds {sh sh' : NShared} {a a' : NThread} (h : NWork sh a sh' a') (hone : holds a + free sh ≤ 1) :
    holds a' + free sh' = holds a + free sh ∧ sh'.blocked = sh.blocked ∧ a'.pc ≠ .rRelease := by
  cases h with
  | call l => simp [holds, pcHolds_call, free]; exact ⟨rfl, by unfold nCall; split <;> simp⟩
  | nested kd f i c r lk fs =>
    simp [holds, pcHolds_call, free, List.countP_cons]; exact ⟨rfl, by unfold nCall; split <;> simp⟩
  | acquire kd fs l h => simp [holds, pcHolds, free, h]; omega
  | fetch kd fs l lk k h => simp [holds, pcHolds, free]
  | handSingle kd fs l lk k e he hs => cases lk <;> simp [holds, pcHolds, free, List.countP_cons] <;> omega
  | handPool kd fs l lk k e he hs room =>
    cases lk <;> simp [holds, pcHolds, free, nRelease] at hone ⊢
    split at hone <;> simp_all <;> omega
  | done kd f lk fs =>
    cases lk <;> simp [holds, pcHolds, free, nRelease, List.countP_cons] at hone ⊢
    split at hone <;> simp_all <;> omega
  | take k e l q he hq => simp [holds, pcHolds, free]
  | expire k e he hq => simp [holds, pcHolds, free]
  | again k e he hf => simp [holds, pcHolds, free]
  | exit k e he hf => simp [holds, pcHolds, free]

theorem admin_holds {pre post : List NThread} {sh sh' : NShared} {a a' : NThread} {new : List NThread}
    (h : NAdmin pre post sh a sh' a' new) (hone : holds a + free sh ≤ 1) :
    holds a' + free sh' = holds a + free sh ∧ (new.map holds).sum = 0 ∧ (∀ t ∈ new, t.pc ≠ .rRelease) ∧
      (sh'.blocked ≠ sh.blocked → 0 < holds a) ∧ (a'.pc = .rRelease → sh'.blocked = false) := by
  cases h with
  | start kd fs exit h hx => simp [holds, pcHolds, free]
  | lock kd fs exit h => simp [holds, pcHolds, free, h]; omega
  | swap kd fs exit => simp [holds, pcHolds, free]; intro; omega
  | stopSingle kd fs exit k e hk he hs => cases exit <;> simp [holds, pcHolds, free]
  | stopPool kd fs exit k e hk he hs => simp [holds, pcHolds, free]
  | drained kd fs exit k e he hq => simp [holds, pcHolds, free]
  | joined kd fs exit k h => cases exit <;> simp [holds, pcHolds, free]
  | load kd fs size cap =>
    refine ⟨by simp [holds, pcHolds, free], ?_, ?_, by simp, by simp⟩
    · simp [holds, pcHolds]
    · intro t ht
      obtain ⟨_, rfl⟩ := List.mem_replicate.mp ht
      simp
  | unblock kd fs => simp [holds, pcHolds, free]; intro; omega
  | release kd fs =>
    simp [holds, pcHolds, free] at hone ⊢
    split at hone <;> simp_all <;> omega

/-- One holder of the engine lock at most; and `write` is unblocked when a change releases it. -/
structure OneHolder (s : NState) : Prop where
  one : (s.threads.map holds).sum + free s.sh = 1
  unblocked : ∀ t ∈ s.threads, t.pc = .rRelease → s.sh.blocked = false

theorem holds_le {ts : List NThread} {t : NThread} (h : t ∈ ts) : holds t ≤ (ts.map holds).sum := by
  induction ts with
  | nil => simp at h
  | cons x ts ih =>
    rcases List.mem_cons.mp h with rfl | h
    · simp
    · have := ih h
      simp only [List.map_cons, List.sum_cons]; omega

theorem reach_holder {ad : Bool} {clients size cap : Nat} {s : NState} (h : NReach ad (.start clients size cap) s) :
    OneHolder s := by
  induction h with
  | init =>
    refine ⟨by simp [NState.start, holds, pcHolds, free], fun t ht => ?_⟩
    simp only [NState.start, List.mem_append, List.mem_replicate] at ht
    rcases ht with ⟨_, rfl⟩ | ⟨_, rfl⟩ <;> simp
  | step b _ hs _ ih =>
    obtain ⟨h1, h2⟩ := ih
    cases hs with
    | work pre post sh sh' a a' h =>
      simp only [List.map_append, List.map_cons, List.sum_append, List.sum_cons] at h1
      obtain ⟨k1, k2, k3⟩ := work_holds h (by omega)
      refine ⟨by simp only [List.map_append, List.map_cons, List.sum_append, List.sum_cons]; omega, fun t ht hp => ?_⟩
      simp only [List.mem_append, List.mem_cons] at ht
      simp only [k2]
      rcases ht with ht | rfl | ht
      · exact h2 t (by simp [ht]) hp
      · exact absurd hp k3
      · exact h2 t (by simp [ht]) hp
    | admin pre post new sh sh' a a' h =>
      simp only [List.map_append, List.map_cons, List.sum_append, List.sum_cons] at h1
      obtain ⟨k1, k2, k3, k4, k5⟩ := admin_holds h (by omega)
      refine ⟨by simp only [List.map_append, List.map_cons, List.sum_append, List.sum_cons]; omega, fun t ht hp => ?_⟩
      have other : t ∈ pre ∨ t ∈ post → sh'.blocked = false := by
        intro ht
        have hb : sh'.blocked = sh.blocked := by
          refine Classical.byContradiction (fun hn => ?_)
          have := k4 hn
          have ht1 : holds t = 1 + t.frames.countP (fun f => f.locked) := by simp [holds, hp, pcHolds]
          rcases ht with ht | ht
          · have := holds_le ht; omega
          · have := holds_le ht; omega
        rw [hb]
        rcases ht with ht | ht
        · exact h2 t (by simp [ht]) hp
        · exact h2 t (by simp [ht]) hp
      simp only [List.mem_append, List.mem_cons] at ht
      rcases ht with ht | rfl | ht | ht
      · exact other (.inl ht)
      · exact k5 hp
      · exact other (.inr ht)
      · exact absurd hp (k3 t ht)

/-- The last steps of a change: the new engine, and back in the handler. -/
theorem change_loads (sh : NShared) (pre post : List NThread) (kd : NKind) (fs : List NFrame) (size cap : Nat) :
    Leads ⟨sh, pre ++ ⟨kd, fs, .rLoad⟩ :: post⟩
      ⟨{ sh with lock := false, blocked := false, engines := sh.engines ++ [⟨size, cap, [], false⟩] },
        pre ++ ⟨kd, fs, .rest⟩ :: (post ++ List.replicate size ⟨.worker sh.engines.length, [], .rest⟩)⟩ := by
  refine .step true (.admin _ _ _ _ _ _ _ (.load sh kd fs size cap)) ?_
  refine .step true (.admin _ _ _ _ _ _ _ (.unblock _ kd fs)) ?_
  refine .step true (.admin _ _ _ _ _ _ _ (.release _ kd fs)) ?_
  simp only [List.append_nil]
  exact .here _

/-- The thread can wait for the workers of a pool that has been told to stop. -/
theorem change_joins {sh : NShared} {k : Nat} {e : NEng} (he : sh.engines[k]? = some e) (hf : e.flag = true)
    (hq : e.queue = []) {pre post : List NThread} (hpre : ∀ t ∈ pre, Idle t) (hpost : ∀ t ∈ post, Idle t)
    (kd : NKind) (fs : List NFrame) :
    ∃ pre' post', (∀ t ∈ pre' ++ post', Idle t) ∧
      Leads ⟨sh, pre ++ ⟨kd, fs, .rJoin false k⟩ :: post⟩ ⟨sh, pre' ++ ⟨kd, fs, .rLoad⟩ :: post'⟩ := by
  obtain ⟨pre', h1, h2⟩ := all_end he hf hq pre hpre [] (⟨kd, fs, .rJoin false k⟩ :: post)
  obtain ⟨post', h3, h4⟩ := all_end he hf hq post hpost (pre' ++ [⟨kd, fs, .rJoin false k⟩]) []
  simp only [List.nil_append, List.append_nil, List.append_assoc, List.cons_append] at h2 h4
  refine ⟨pre', post', ?_, leads_trans h2 (leads_trans h4 ?_)⟩
  · intro t ht
    rcases List.mem_append.mp ht with ht | ht
    · exact (h1 t ht).1
    · exact (h3 t ht).1
  · refine .step true (.admin _ _ _ _ _ _ _ (.joined sh kd fs false k ?_)) (by simpa using .here _)
    intro w hw hk
    rcases List.mem_append.mp hw with hw | hw
    · exact (h1 w hw).2 hk
    · split at hw
      · simp at hw
      · exact (h3 w hw).2 hk

end Nst

/-- **C93, when nothing else is going on**: a call of `config.set(pool_size=…)`, by a client thread or by a handler, in
whatever thread that handler runs, however far it has got: if all other threads are idle and no log is in a queue, it can be
completed with any new size and limit. It changes nothing but the engine, no log is handled meanwhile, and the handler goes
on where it was. Missing: other threads at work, see the theorems ending in `_fails`. -/
theorem C93_change_completes_partial (clients size cap : Nat) (sh : NShared) (pre post : List NThread) (t : NThread)
    (h : NReach true (.start clients size cap) ⟨sh, pre ++ t :: post⟩) (hc : Changing sh t)
    (hidle : ∀ w ∈ pre ++ post, Idle w) (hempty : ∀ e ∈ sh.engines, e.queue = []) (newSize newCap : Nat) :
    ∃ sh' pre' post', Leads ⟨sh, pre ++ t :: post⟩ ⟨sh', pre' ++ ⟨t.kind, t.frames, .rest⟩ :: post'⟩ ∧
      (∀ w ∈ pre' ++ post', Idle w) ∧ (∀ e ∈ sh'.engines, e.queue = []) ∧
      sh'.lock = false ∧ sh'.blocked = false ∧ sh'.handled = sh.handled ∧ sh'.written = sh.written ∧
      (t.pc ≠ .rUnblock ∧ t.pc ≠ .rRelease → sh'.engines.getLast? = some ⟨newSize, newCap, [], false⟩) := by
  obtain ⟨hne, hth⟩ := reach_known h
  have hpre : ∀ w ∈ pre, Idle w := fun w hw => hidle w (by simp [hw])
  have hpost : ∀ w ∈ post, Idle w := fun w hw => hidle w (by simp [hw])
  obtain ⟨kd, fs, pc⟩ := t
  obtain ⟨kt1, kt2, kt3⟩ := hth ⟨kd, fs, pc⟩ (by simp)
  simp only at kt1 kt2 kt3 hne
  -- from the loading of the new engine
  have fLoad : ∀ (sh0 : NShared) (pre post : List NThread), (∀ w ∈ pre ++ post, Idle w) →
      (∀ e ∈ sh0.engines, e.queue = []) →
      ∃ sh' pre' post', Leads ⟨sh0, pre ++ ⟨kd, fs, .rLoad⟩ :: post⟩ ⟨sh', pre' ++ ⟨kd, fs, .rest⟩ :: post'⟩ ∧
        (∀ w ∈ pre' ++ post', Idle w) ∧ (∀ e ∈ sh'.engines, e.queue = []) ∧
        sh'.lock = false ∧ sh'.blocked = false ∧ sh'.handled = sh0.handled ∧ sh'.written = sh0.written ∧
        sh'.engines.getLast? = some ⟨newSize, newCap, [], false⟩ := by
    intro sh0 pre post hi hq
    refine ⟨_, _, _, change_loads sh0 pre post kd fs newSize newCap, ?_, ?_, rfl, rfl, rfl, rfl, by simp⟩
    · intro w hw
      simp only [List.mem_append, List.mem_replicate] at hw hi
      rcases hw with hw | hw | ⟨_, rfl⟩
      · exact hi w (.inl hw)
      · exact hi w (.inr hw)
      · exact ⟨rfl, .inl rfl⟩
    · intro e he
      simp only [List.mem_append, List.mem_singleton] at he
      rcases he with he | rfl
      · exact hq e he
      · rfl
  -- from the joins
  have fJoin : ∀ (sh0 : NShared) (k : Nat) (e : NEng), sh0.engines[k]? = some e → e.flag = true →
      (∀ e ∈ sh0.engines, e.queue = []) →
      ∃ sh' pre' post', Leads ⟨sh0, pre ++ ⟨kd, fs, .rJoin false k⟩ :: post⟩ ⟨sh', pre' ++ ⟨kd, fs, .rest⟩ :: post'⟩ ∧
        (∀ w ∈ pre' ++ post', Idle w) ∧ (∀ e ∈ sh'.engines, e.queue = []) ∧
        sh'.lock = false ∧ sh'.blocked = false ∧ sh'.handled = sh0.handled ∧ sh'.written = sh0.written ∧
        sh'.engines.getLast? = some ⟨newSize, newCap, [], false⟩ := by
    intro sh0 k e he hf hq
    obtain ⟨pre1, post1, h1, h2⟩ := change_joins he hf (hq e (List.mem_of_getElem? he)) hpre hpost kd fs
    obtain ⟨sh', pre', post', h3, h4⟩ := fLoad sh0 pre1 post1 h1 hq
    exact ⟨sh', pre', post', leads_trans h2 h3, h4⟩
  have fPoll : ∀ (sh0 : NShared) (k : Nat) (e : NEng), sh0.engines[k]? = some e → (∀ e ∈ sh0.engines, e.queue = []) →
      ∃ sh' pre' post', Leads ⟨sh0, pre ++ ⟨kd, fs, .rPoll false k⟩ :: post⟩ ⟨sh', pre' ++ ⟨kd, fs, .rest⟩ :: post'⟩ ∧
        (∀ w ∈ pre' ++ post', Idle w) ∧ (∀ e ∈ sh'.engines, e.queue = []) ∧
        sh'.lock = false ∧ sh'.blocked = false ∧ sh'.handled = sh0.handled ∧ sh'.written = sh0.written ∧
        sh'.engines.getLast? = some ⟨newSize, newCap, [], false⟩ := by
    intro sh0 k e he hq
    have hlt : k < sh0.engines.length := by
      refine Classical.byContradiction (fun hn => ?_)
      rw [List.getElem?_eq_none (by omega)] at he; simp at he
    have hqe := hq e (List.mem_of_getElem? he)
    obtain ⟨sh', pre', post', h3, h4⟩ := fJoin { sh0 with engines := sh0.engines.set k { e with flag := true } } k
      { e with flag := true } (by simp [hlt]) rfl (by
        intro d hd
        rcases List.mem_or_eq_of_mem_set hd with hd | rfl
        · exact hq d hd
        · exact hqe)
    refine ⟨sh', pre', post', .step true (.admin _ _ _ _ _ _ _ (.drained sh0 kd fs false k e he hqe)) ?_, h4⟩
    simpa using h3
  have fStop : ∀ (sh0 : NShared), sh0.engines ≠ [] → (∀ e ∈ sh0.engines, e.queue = []) →
      ∃ sh' pre' post', Leads ⟨sh0, pre ++ ⟨kd, fs, .rStop false⟩ :: post⟩ ⟨sh', pre' ++ ⟨kd, fs, .rest⟩ :: post'⟩ ∧
        (∀ w ∈ pre' ++ post', Idle w) ∧ (∀ e ∈ sh'.engines, e.queue = []) ∧
        sh'.lock = false ∧ sh'.blocked = false ∧ sh'.handled = sh0.handled ∧ sh'.written = sh0.written ∧
        sh'.engines.getLast? = some ⟨newSize, newCap, [], false⟩ := by
    intro sh0 hn hq
    obtain ⟨k, hk⟩ : ∃ k, sh0.engines.length = k + 1 := by
      cases hh : sh0.engines with
      | nil => exact absurd hh hn
      | cons x l => exact ⟨l.length, rfl⟩
    obtain ⟨e, he⟩ : ∃ e, sh0.engines[k]? = some e := ⟨_, List.getElem?_eq_getElem (by omega)⟩
    by_cases hs : e.size = 0
    · obtain ⟨sh', pre', post', h3, h4⟩ := fLoad sh0 pre post hidle hq
      refine ⟨sh', pre', post', .step true (.admin _ _ _ _ _ _ _ (.stopSingle sh0 kd fs false k e hk he hs)) ?_, h4⟩
      simpa using h3
    · obtain ⟨sh', pre', post', h3, h4⟩ := fPoll sh0 k e he hq
      refine ⟨sh', pre', post', .step true (.admin _ _ _ _ _ _ _ (.stopPool sh0 kd fs false k e hk he hs)) ?_, h4⟩
      simpa using h3
  have fSwap : ∀ (sh0 : NShared), sh0.engines ≠ [] → (∀ e ∈ sh0.engines, e.queue = []) →
      ∃ sh' pre' post', Leads ⟨sh0, pre ++ ⟨kd, fs, .rSwap false⟩ :: post⟩ ⟨sh', pre' ++ ⟨kd, fs, .rest⟩ :: post'⟩ ∧
        (∀ w ∈ pre' ++ post', Idle w) ∧ (∀ e ∈ sh'.engines, e.queue = []) ∧
        sh'.lock = false ∧ sh'.blocked = false ∧ sh'.handled = sh0.handled ∧ sh'.written = sh0.written ∧
        sh'.engines.getLast? = some ⟨newSize, newCap, [], false⟩ := by
    intro sh0 hn hq
    obtain ⟨sh', pre', post', h3, h4⟩ := fStop { sh0 with blocked := true } hn hq
    refine ⟨sh', pre', post', .step true (.admin _ _ _ _ _ _ _ (.swap sh0 kd fs false)) ?_, h4⟩
    simpa using h3
  have weaken : (∃ sh' pre' post', Leads ⟨sh, pre ++ ⟨kd, fs, pc⟩ :: post⟩ ⟨sh', pre' ++ ⟨kd, fs, .rest⟩ :: post'⟩ ∧
        (∀ w ∈ pre' ++ post', Idle w) ∧ (∀ e ∈ sh'.engines, e.queue = []) ∧
        sh'.lock = false ∧ sh'.blocked = false ∧ sh'.handled = sh.handled ∧ sh'.written = sh.written ∧
        sh'.engines.getLast? = some ⟨newSize, newCap, [], false⟩) →
      ∃ sh' pre' post', Leads ⟨sh, pre ++ ⟨kd, fs, pc⟩ :: post⟩ ⟨sh', pre' ++ ⟨kd, fs, .rest⟩ :: post'⟩ ∧
      (∀ w ∈ pre' ++ post', Idle w) ∧ (∀ e ∈ sh'.engines, e.queue = []) ∧
      sh'.lock = false ∧ sh'.blocked = false ∧ sh'.handled = sh.handled ∧ sh'.written = sh.written ∧
      (pc ≠ .rUnblock ∧ pc ≠ .rRelease → sh'.engines.getLast? = some ⟨newSize, newCap, [], false⟩) := by
    rintro ⟨sh', pre', post', h1, h2, h3, h4, h5, h6, h7, h8⟩
    exact ⟨sh', pre', post', h1, h2, h3, h4, h5, h6, h7, fun _ => h8⟩
  rcases hc with ⟨rfl, hl⟩ | rfl | rfl | ⟨k, rfl⟩ | ⟨k, rfl⟩ | rfl | rfl | rfl
  · refine weaken ?_
    obtain ⟨sh', pre', post', h3, h4⟩ := fSwap { sh with lock := true } hne hempty
    refine ⟨sh', pre', post', .step true (.admin _ _ _ _ _ _ _ (.lock sh kd fs false hl)) ?_, h4⟩
    simpa using h3
  · exact weaken (fSwap sh hne hempty)
  · exact weaken (fStop sh hne hempty)
  · obtain ⟨e, he⟩ := kt1 false k rfl
    exact weaken (fPoll sh k e he hempty)
  · obtain ⟨e, he, hf⟩ := kt2 false k rfl
    exact weaken (fJoin sh k e he hf hempty)
  · exact weaken (fLoad sh pre post hidle hempty)
  · refine ⟨{ sh with lock := false, blocked := false }, pre, post,
      .step true (.admin _ _ _ _ _ _ _ (.unblock sh kd fs))
      (.step true (.admin _ _ _ _ _ _ _ (.release _ kd fs)) (by simpa using .here _)), hidle, hempty, rfl, rfl, rfl, rfl, ?_⟩
    simp
  · have hb := (reach_holder h).unblocked ⟨kd, fs, .rRelease⟩ (by simp) rfl
    refine ⟨{ sh with lock := false }, pre, post,
      .step true (.admin _ _ _ _ _ _ _ (.release sh kd fs)) (by simpa using .here _), hidle, hempty, rfl, hb, rfl, rfl, ?_⟩
    simp

/-- The hypotheses are met by the handler of a log in the only worker, which has just called `config.set(pool_size=…)`. -/
example : ∃ sh pre t post, NReach true (.start 1 1 0) ⟨sh, pre ++ t :: post⟩ ∧ Changing sh t ∧
    (∀ w ∈ pre ++ post, Idle w) ∧ (∀ e ∈ sh.engines, e.queue = []) ∧ t.kind = .worker 0 ∧ t.frames ≠ [] := by
  have s1 := NReach.step true (worker_in_handler true 0)
    (.admin [⟨.client, [], .rest⟩] [] [] _ _ _ _ (.start _ _ _ false (by simp) (by simp))) (by simp)
  refine ⟨_, [⟨.client, [], .rest⟩], _, [], s1, .inl ⟨rfl, rfl⟩, ?_, ?_, rfl, by simp⟩
  · intro w hw
    simp at hw
    subst hw
    exact ⟨rfl, .inl rfl⟩
  · intro e he
    simp at he
    rw [he]

/-! ### What goes wrong -/

theorem stuck_of {sh : NShared} {ts : List NThread} (hw : ∀ t ∈ ts, ∀ sh' a', ¬ NWork sh t sh' a')
    (ha : ∀ pre a post, ts = pre ++ a :: post → ∀ sh' a' new, ¬ NAdmin pre post sh a sh' a' new) : Stuck ⟨sh, ts⟩ := by
  intro b s' h
  generalize hs : (⟨sh, ts⟩ : NState) = s at h
  cases h with
  | work pre post sh0 sh' a a' h =>
    simp only [NState.mk.injEq] at hs
    obtain ⟨rfl, rfl⟩ := hs
    exact hw a (by simp) _ _ h
  | admin pre post new sh0 sh' a a' h =>
    simp only [NState.mk.injEq] at hs
    obtain ⟨rfl, hs⟩ := hs
    exact ha pre a post hs _ _ _ h

theorem three_split {α : Type} {pre post : List α} {a b c d : α} (h : [b, c, d] = pre ++ a :: post) :
    (pre = [] ∧ a = b ∧ post = [c, d]) ∨ (pre = [b] ∧ a = c ∧ post = [d]) ∨ (pre = [b, c] ∧ a = d ∧ post = []) := by
  match pre with
  | [] => simp at h; grind
  | [x] => simp at h; grind
  | [x, y] => simp at h; grind
  | x :: y :: z :: r => simp at h

/-- **C93 fails, a waiting log**: one worker. Its handler calls `config.set(pool_size=…)` while one more log is in the queue:
it waits until the queue is empty, and only it could empty it. Nobody can write a log any more. -/
theorem C93_waiting_log_fails : ∃ s, NReach true (.start 1 1 0) s ∧ Stuck s ∧ s.sh.handled = [] ∧
    (∃ t ∈ s.threads, t.kind = .worker 0 ∧ t.frames ≠ [] ∧ t.pc = .rPoll false 0) ∧ s.sh.written.length = 3 := by
  have w := worker_in_handler true 0
  have s1 := NReach.step false w (.work [] [_] _ _ _ _ (.call _ ⟨2, .nil⟩)) (by simp)
  have s2 := NReach.step false s1 (.work [] [_] _ _ _ _ (.fetch _ _ _ _ _ 0 rfl)) (by simp)
  have s3 := NReach.step false s2 (.work [] [_] _ _ _ _
    (.handPool _ _ _ _ _ _ ⟨1, 0, [], false⟩ rfl (by simp) (by simp))) (by simp)
  have s4 := NReach.step true s3 (.admin [_] [] [] _ _ _ _ (.start _ _ _ false (by simp) (by simp))) (by simp)
  have s5 := NReach.step true s4 (.admin [_] [] [] _ _ _ _ (.lock _ _ _ false rfl)) (by simp)
  have s6 := NReach.step true s5 (.admin [_] [] [] _ _ _ _ (.swap _ _ _ false)) (by simp)
  have s7 := NReach.step true s6 (.admin [_] [] [] _ _ _ _
    (.stopPool _ _ _ false 0 ⟨1, 0, [⟨2, .nil⟩], false⟩ rfl rfl (by simp))) (by simp)
  have s8 := NReach.step false s7 (.work [] [_] _ _ _ _ (.call _ ⟨3, .nil⟩)) (by simp)
  refine ⟨_, s8, ?_, rfl, ⟨_, List.mem_cons_of_mem _ List.mem_cons_self, rfl, by simp, rfl⟩, rfl⟩
  apply stuck_two
  · intro sh' a' h
    cases h with
    | acquire kd fs l h => simp at h
  · intro sh' a' h; cases h
  · intro sh' a' new h; cases h
  · intro sh' a' new h
    cases h with
    | drained kd fs exit k e he hq => simp [nRelease] at he; subst he; simp at hq

/-- **C93 fails, two handlers at once**: two workers, each in a handler that calls `config.set(pool_size=…)`. The second
worker has got the engine lock and joins the first, which waits for that lock. Nobody can write a log any more. -/
theorem C93_two_handlers_fails : ∃ s, NReach true (.start 1 2 0) s ∧ Stuck s ∧ s.sh.handled = [] ∧
    s.threads.countP (fun t => decide (t.kind = .worker 0 ∧ t.frames ≠ [])) = 2 ∧ s.sh.written.length = 3 := by
  have s1 := NReach.step false (.init : NReach true (.start 1 2 0) _)
    (.work [] [⟨.worker 0, [], .rest⟩, ⟨.worker 0, [], .rest⟩] _ _ _ _ (.call _ ⟨0, .nil⟩)) (by simp)
  have s2 := NReach.step false s1 (.work [] [_, _] _ _ _ _ (.fetch _ _ _ _ _ 0 rfl)) (by simp)
  have s3 := NReach.step false s2 (.work [] [_, _] _ _ _ _
    (.handPool _ _ _ _ _ _ ⟨2, 0, [], false⟩ rfl (by simp) (by simp))) (by simp)
  have s4 := NReach.step false s3 (.work [_] [_] _ _ _ _ (.take _ 0 ⟨2, 0, [⟨0, .nil⟩], false⟩ ⟨0, .nil⟩ [] rfl rfl)) (by simp)
  have s5 := NReach.step false s4 (.work [] [_, _] _ _ _ _ (.call _ ⟨1, .nil⟩)) (by simp)
  have s6 := NReach.step false s5 (.work [] [_, _] _ _ _ _ (.fetch _ _ _ _ _ 0 rfl)) (by simp)
  have s7 := NReach.step false s6 (.work [] [_, _] _ _ _ _
    (.handPool _ _ _ _ _ _ ⟨2, 0, [], false⟩ rfl (by simp) (by simp))) (by simp)
  have s8 := NReach.step false s7
    (.work [_, _] [] _ _ _ _ (.take _ 0 ⟨2, 0, [⟨1, .nil⟩], false⟩ ⟨1, .nil⟩ [] rfl rfl)) (by simp)
  have t1 := NReach.step true s8 (.admin [_, _] [] [] _ _ _ _ (.start _ _ _ false (by simp) (by simp))) (by simp)
  have t2 := NReach.step true t1 (.admin [_, _] [] [] _ _ _ _ (.lock _ _ _ false rfl)) (by simp)
  have t3 := NReach.step true t2 (.admin [_, _] [] [] _ _ _ _ (.swap _ _ _ false)) (by simp)
  have t4 := NReach.step true t3 (.admin [_, _] [] [] _ _ _ _
    (.stopPool _ _ _ false 0 ⟨2, 0, [], false⟩ rfl rfl (by simp))) (by simp)
  have t5 := NReach.step true t4 (.admin [_, _] [] [] _ _ _ _ (.drained _ _ _ false 0 ⟨2, 0, [], false⟩ rfl rfl)) (by simp)
  have t6 := NReach.step true t5 (.admin [_] [_] [] _ _ _ _ (.start _ _ _ false (by simp) (by simp))) (by simp)
  have t7 := NReach.step false t6 (.work [] [_, _] _ _ _ _ (.call _ ⟨2, .nil⟩)) (by simp)
  refine ⟨_, t7, ?_, rfl, by decide, rfl⟩
  apply stuck_of
  · intro t ht sh' a' h
    simp [nCall] at ht
    rcases ht with rfl | rfl | rfl
    · cases h with
      | acquire kd fs l h => simp [nRelease] at h
    · cases h
    · cases h
  · intro pre a post hs sh' a' new h
    rcases three_split hs with ⟨rfl, rfl, rfl⟩ | ⟨rfl, rfl, rfl⟩ | ⟨rfl, rfl, rfl⟩
    · simp only [nCall] at h; cases h
    · cases h with
      | lock kd fs exit h => simp [nRelease] at h
    · cases h with
      | joined kd fs exit k h => simp at h

/-- **C93 fails, the synchronous engine**: one thread changes `pool_size` from 1 to 0; a log that another thread writes
meanwhile is handled by that thread, with the engine lock held. If its handler calls `config.set(pool_size=…)`, it waits for
the lock of its own thread, and nobody can change the setting any more. -/
theorem C93_synchronous_fails : ∃ s, NReach true (.start 2 1 0) s ∧ Stuck s ∧ s.sh.handled = [] ∧
    (∃ t ∈ s.threads, t.kind = .client ∧ t.frames ≠ [] ∧ t.pc = .rBlock false) ∧ s.sh.written.length = 1 := by
  have s1 := NReach.step true (.init : NReach true (.start 2 1 0) _)
    (.admin [] [⟨.client, [], .rest⟩, ⟨.worker 0, [], .rest⟩] [] _ _ _ _ (.start _ _ _ false (by simp) (by simp))) (by simp)
  have s2 := NReach.step true s1 (.admin [] [_, _] [] _ _ _ _ (.lock _ _ _ false rfl)) (by simp)
  have s3 := NReach.step true s2 (.admin [] [_, _] [] _ _ _ _ (.swap _ _ _ false)) (by simp)
  have s4 := NReach.step false s3 (.work [_] [_] _ _ _ _ (.call _ ⟨0, .nil⟩)) (by simp)
  have s5 := NReach.step true s4 (.admin [] [_, _] [] _ _ _ _
    (.stopPool _ _ _ false 0 ⟨1, 0, [], false⟩ rfl rfl (by simp))) (by simp)
  have s6 := NReach.step true s5 (.admin [] [_, _] [] _ _ _ _ (.drained _ _ _ false 0 ⟨1, 0, [], false⟩ rfl rfl)) (by simp)
  have s7 := NReach.step false s6 (.work [_, _] [] _ _ _ _ (.expire _ 0 ⟨1, 0, [], true⟩ rfl rfl)) (by simp)
  have s8 := NReach.step false s7 (.work [_, _] [] _ _ _ _ (.exit _ 0 ⟨1, 0, [], true⟩ rfl rfl)) (by simp)
  have s9 := NReach.step true s8 (.admin [] [_, _] [] _ _ _ _ (.joined _ _ _ false 0 (by simp))) (by simp)
  have t6 := NReach.step true s9 (.admin [] [_, _] [] _ _ _ _ (.load _ _ _ 0 0)) (by simp)
  have t7 := NReach.step true t6 (.admin [] [_, _] [] _ _ _ _ (.unblock _ _ _)) (by simp)
  have t8 := NReach.step true t7 (.admin [] [_, _] [] _ _ _ _ (.release _ _ _)) (by simp)
  have u1 := NReach.step false t8 (.work [_] [_] _ _ _ _ (.acquire _ _ _ _ rfl)) (by simp)
  have u2 := NReach.step false u1 (.work [_] [_] _ _ _ _ (.fetch _ _ _ _ _ 1 rfl)) (by simp)
  have u3 := NReach.step false u2 (.work [_] [_] _ _ _ _
    (.handSingle _ _ _ _ _ _ ⟨0, 0, [], false⟩ rfl rfl)) (by simp)
  have u4 := NReach.step true u3 (.admin [_] [_] [] _ _ _ _ (.start _ _ _ false (by simp) (by simp))) (by simp)
  have u5 := NReach.step true u4 (.admin [] [_, _] [] _ _ _ _ (.start _ _ _ false (by simp) (by simp))) (by simp)
  refine ⟨_, u5, ?_, rfl, ⟨_, List.mem_cons_of_mem _ List.mem_cons_self, rfl, by simp, rfl⟩, rfl⟩
  apply stuck_of
  · intro t ht sh' a' h
    simp at ht
    rcases ht with rfl | rfl | rfl <;> cases h
  · intro pre a post hs sh' a' new h
    rcases three_split hs with ⟨rfl, rfl, rfl⟩ | ⟨rfl, rfl, rfl⟩ | ⟨rfl, rfl, rfl⟩
    · cases h with
      | lock kd fs exit h => simp at h
    · cases h with
      | lock kd fs exit h => simp at h
    · cases h

end Polog
