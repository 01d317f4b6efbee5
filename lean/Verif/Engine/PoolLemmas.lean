import Verif.Engine.PoolSpec

namespace Polog
open PoolSpec

theorem setFn_self {β : Type} (f : Nat → β) (a : Nat) (b : β) : setFn f a b a = b := by simp [setFn]

theorem setFn_ne {β : Type} (f : Nat → β) (b : β) {a x : Nat} (h : x ≠ a) : setFn f a b x = f x := by
  simp [setFn, h]

@[simp] theorem puts_snoc (tr : List PLabel) (a : PLabel) :
    puts (tr ++ [a]) = puts tr ++ (match a with | .put l => [l] | _ => []) := by
  cases a <;> simp [puts]

@[simp] theorem takes_snoc (tr : List PLabel) (a : PLabel) :
    takes (tr ++ [a]) = takes tr ++ (match a with | .take _ l => [l] | _ => []) := by
  cases a <;> simp [takes]

@[simp] theorem handled_snoc (tr : List PLabel) (a : PLabel) :
    handled (tr ++ [a]) = handled tr ++ (match a with | .handled _ l => [l] | _ => []) := by
  cases a <;> simp [handled]

theorem busyLogs_congr {w w' : Nat → WPC} : ∀ {k : Nat}, (∀ i < k, w i = w' i) →
    busyLogs w k = busyLogs w' k := by
  intro k
  induction k with
  | zero => intro _; rfl
  | succ k ih =>
    intro h
    simp only [busyLogs]
    rw [ih (fun i hi => h i (Nat.lt_succ_of_lt hi)), h k (Nat.lt_succ_self k)]

theorem busyLogs_setFn_ge {w : Nat → WPC} {i k : Nat} {x : WPC} (h : k ≤ i) :
    busyLogs (setFn w i x) k = busyLogs w k :=
  busyLogs_congr fun j hj => setFn_ne _ _ (by omega)

/-- Counting: replacing what one worker does. -/
theorem busyLogs_count {w : Nat → WPC} {i : Nat} {x : WPC} (l : Log) : ∀ {k : Nat}, i < k →
    (busyLogs (setFn w i x) k).count l + (if w i = .busy l then 1 else 0)
      = (busyLogs w k).count l + (if x = .busy l then 1 else 0) := by
  intro k
  induction k with
  | zero => intro h; omega
  | succ k ih =>
    intro hi
    simp only [busyLogs, List.count_append]
    have one : ∀ y : WPC, (workersLog y).count l = if y = .busy l then 1 else 0 := by
      intro y
      cases y with
      | busy l' => simp [workersLog, List.count_cons]
      | _ => simp [workersLog]
    by_cases h : i = k
    · subst h
      rw [busyLogs_setFn_ge (Nat.le_refl _), setFn_self]
      have h1 := one x
      have h2 := one (w i)
      omega
    · have := ih (by omega)
      rw [setFn_ne _ _ (Ne.symm h)]
      omega

theorem busyLogs_eq_nil {w : Nat → WPC} {k : Nat} (h : ∀ i < k, ∀ l, w i ≠ .busy l) :
    busyLogs w k = [] := by
  induction k with
  | zero => rfl
  | succ k ih =>
    simp only [busyLogs]
    rw [ih (fun i hi => h i (Nat.lt_succ_of_lt hi))]
    have := h k (Nat.lt_succ_self k)
    cases hw : w k with
    | busy l => exact absurd hw (this l)
    | _ => rfl

theorem mem_busyLogs {w : Nat → WPC} {k : Nat} {l : Log} :
    l ∈ busyLogs w k ↔ ∃ i < k, w i = .busy l := by
  induction k with
  | zero => simp [busyLogs]
  | succ k ih =>
    simp only [busyLogs, List.mem_append, ih]
    constructor
    · rintro (⟨i, hi, h⟩ | h)
      · exact ⟨i, by omega, h⟩
      · cases hw : w k with
        | busy l' =>
          rw [hw] at h
          simp [workersLog] at h
          exact ⟨k, by omega, by rw [hw, h]⟩
        | _ => rw [hw] at h; cases h
    · rintro ⟨i, hi, h⟩
      by_cases hk : i = k
      · subst hk; right; rw [h]; simp [workersLog]
      · exact .inl ⟨i, by omega, h⟩

/-- The invariant of every execution. -/
structure PInv (size cap : Nat) (tr : List PLabel) (p : Pool) : Prop where
  sizeEq : p.size = size
  capEq : p.cap = cap
  fifo : takes tr ++ p.queue = puts tr
  counts : ∀ l, (takes tr).count l = (handled tr).count l + (busyLogs p.worker size).count l
  bound : cap ≠ 0 → p.queue.length ≤ cap
  flags : p.closed = false → ∀ i, p.flag i = false
  exits : ∀ i, p.worker i = .exited → p.flag i = true
  joined : ∀ j, p.stop = .joining j → ∀ i < j, p.worker i = .exited
  finished : p.stop = .done → ∀ i < size, p.worker i = .exited
  flagged : ∀ j, p.stop = .flagging j → ∀ i < j, p.flag i = true
  allFlagged : ∀ j, p.stop = .joining j → ∀ i < size, p.flag i = true

theorem PInv_init (size cap : Nat) : PInv size cap [] (Pool.init size cap) := by
  constructor <;> simp [Pool.init, puts, takes, handled, Pool.closed]
  intro l
  have : busyLogs (fun _ => WPC.waiting) size = [] := busyLogs_eq_nil (by simp)
  rw [this]; rfl

theorem PInv_step {size cap : Nat} {tr : List PLabel} {p p' : Pool} {a : PLabel}
    (h : PInv size cap tr p) (hs : PStep p a p') : PInv size cap (tr ++ [a]) p' := by
  obtain ⟨hsize, hcap, fifo, counts, bound, flags, exits, joined, finished, flagged, allFlagged⟩ := h
  subst hsize hcap
  cases hs with
  | put l room =>
    refine ⟨rfl, rfl, ?_, ?_, ?_, flags, exits, joined, finished, flagged, allFlagged⟩
    · simp [← fifo]
    · simpa using counts
    · intro h
      have := bound h
      simp only [List.length_append, List.length_singleton]
      rcases room with h' | h'
      · exact absurd h' h
      · omega
  | take i l q hi hw hq =>
    have notExited : ∀ j, setFn p.worker i (.busy l) j = .exited → p.worker j = .exited := by
      intro j hj
      by_cases hji : j = i
      · subst hji; rw [setFn_self] at hj; cases hj
      · rwa [setFn_ne _ _ hji] at hj
    refine ⟨rfl, rfl, ?_, ?_, ?_, flags, fun j hj => exits j (notExited j hj), ?_, ?_, flagged, allFlagged⟩
    · simp [← fifo, hq]
    · intro l'
      have := counts l'
      have hc := busyLogs_count (w := p.worker) (i := i) (x := .busy l) l' (k := p.size) hi
      simp only [takes_snoc, handled_snoc, List.count_append, List.append_nil]
      rw [hw] at hc
      simp only [reduceCtorEq, ↓reduceIte, Nat.add_zero, WPC.busy.injEq] at hc
      rw [hc, this, List.count_cons]
      simp only [List.count_nil, beq_iff_eq]
      omega
    · intro hc
      have := bound hc
      rw [hq] at this
      simp only [List.length_cons] at this ⊢
      omega
    · intro j hj k hk
      have := joined j hj k hk
      by_cases hki : k = i
      · subst hki; rw [hw] at this; cases this
      · dsimp only; rw [setFn_ne _ _ hki]; exact this
    · intro hd k hk
      have := finished hd k hk
      by_cases hki : k = i
      · subst hki; rw [hw] at this; cases this
      · dsimp only; rw [setFn_ne _ _ hki]; exact this
  | handled i l hi hw =>
    have notExited : ∀ j, setFn p.worker i .waiting j = .exited → p.worker j = .exited := by
      intro j hj
      by_cases hji : j = i
      · subst hji; rw [setFn_self] at hj; cases hj
      · rwa [setFn_ne _ _ hji] at hj
    refine ⟨rfl, rfl, ?_, ?_, bound, flags, fun j hj => exits j (notExited j hj), ?_, ?_, flagged, allFlagged⟩
    · simp [← fifo]
    · intro l'
      have := counts l'
      have hc := busyLogs_count (w := p.worker) (i := i) (x := .waiting) l' (k := p.size) hi
      simp only [takes_snoc, handled_snoc, List.count_append, List.append_nil]
      rw [hw] at hc
      simp only [reduceCtorEq, ↓reduceIte, Nat.add_zero, WPC.busy.injEq] at hc
      rw [this, List.count_cons]
      simp only [List.count_nil, beq_iff_eq]
      omega
    · intro j hj k hk
      have := joined j hj k hk
      by_cases hki : k = i
      · subst hki; rw [hw] at this; cases this
      · dsimp only; rw [setFn_ne _ _ hki]; exact this
    · intro hd k hk
      have := finished hd k hk
      by_cases hki : k = i
      · subst hki; rw [hw] at this; cases this
      · dsimp only; rw [setFn_ne _ _ hki]; exact this
  | expire i hi hw hq =>
    have notExited : ∀ j, setFn p.worker i .expired j = .exited → p.worker j = .exited := by
      intro j hj
      by_cases hji : j = i
      · subst hji; rw [setFn_self] at hj; cases hj
      · rwa [setFn_ne _ _ hji] at hj
    refine ⟨rfl, rfl, ?_, ?_, bound, flags, fun j hj => exits j (notExited j hj), ?_, ?_, flagged, allFlagged⟩
    · simp [← fifo]
    · intro l'
      have := counts l'
      have hc := busyLogs_count (w := p.worker) (i := i) (x := .expired) l' (k := p.size) hi
      rw [hw] at hc
      simp only [reduceCtorEq, ↓reduceIte, Nat.add_zero] at hc
      simp only [takes_snoc, handled_snoc, List.append_nil]
      omega
    · intro j hj k hk
      have := joined j hj k hk
      by_cases hki : k = i
      · subst hki; rw [hw] at this; cases this
      · dsimp only; rw [setFn_ne _ _ hki]; exact this
    · intro hd k hk
      have := finished hd k hk
      by_cases hki : k = i
      · subst hki; rw [hw] at this; cases this
      · dsimp only; rw [setFn_ne _ _ hki]; exact this
  | again i hi hw hf =>
    have notExited : ∀ j, setFn p.worker i .waiting j = .exited → p.worker j = .exited := by
      intro j hj
      by_cases hji : j = i
      · subst hji; rw [setFn_self] at hj; cases hj
      · rwa [setFn_ne _ _ hji] at hj
    refine ⟨rfl, rfl, ?_, ?_, bound, flags, fun j hj => exits j (notExited j hj), ?_, ?_, flagged, allFlagged⟩
    · simp [← fifo]
    · intro l'
      have := counts l'
      have hc := busyLogs_count (w := p.worker) (i := i) (x := .waiting) l' (k := p.size) hi
      rw [hw] at hc
      simp only [reduceCtorEq, ↓reduceIte, Nat.add_zero] at hc
      simp only [takes_snoc, handled_snoc, List.append_nil]
      omega
    · intro j hj k hk
      have := joined j hj k hk
      by_cases hki : k = i
      · subst hki; rw [hw] at this; cases this
      · dsimp only; rw [setFn_ne _ _ hki]; exact this
    · intro hd k hk
      have := finished hd k hk
      by_cases hki : k = i
      · subst hki; rw [hw] at this; cases this
      · dsimp only; rw [setFn_ne _ _ hki]; exact this
  | exit i hi hw hf =>
    refine ⟨rfl, rfl, ?_, ?_, bound, flags, ?_, ?_, ?_, flagged, allFlagged⟩
    · simp [← fifo]
    · intro l'
      have := counts l'
      have hc := busyLogs_count (w := p.worker) (i := i) (x := .exited) l' (k := p.size) hi
      rw [hw] at hc
      simp only [reduceCtorEq, ↓reduceIte, Nat.add_zero] at hc
      simp only [takes_snoc, handled_snoc, List.append_nil]
      omega
    · intro j hj
      by_cases hji : j = i
      · subst hji; exact hf
      · simp only at hj; rw [setFn_ne _ _ hji] at hj; exact exits j hj
    · intro j hj k hk
      have := joined j hj k hk
      by_cases hki : k = i
      · subst hki; exact setFn_self _ _ _
      · dsimp only; rw [setFn_ne _ _ hki]; exact this
    · intro hd k hk
      have := finished hd k hk
      by_cases hki : k = i
      · subst hki; exact setFn_self _ _ _
      · dsimp only; rw [setFn_ne _ _ hki]; exact this
  | stopCall hst =>
    refine ⟨rfl, rfl, by simp [← fifo], by simpa using counts, bound, ?_, exits, ?_, ?_, ?_, ?_⟩
    · intro _; exact flags (by simp [Pool.closed, hst])
    all_goals simp
  | drained hst hq =>
    refine ⟨rfl, rfl, by simp [← fifo], by simpa using counts, bound, ?_, exits, ?_, ?_, ?_, ?_⟩
    · simp [Pool.closed]
    · simp
    · simp
    · intro j hj; cases hj; intro i hi; omega
    · simp
  | setFlag j hst hj =>
    refine ⟨rfl, rfl, by simp [← fifo], by simpa using counts, bound, ?_, ?_, ?_, ?_, ?_, ?_⟩
    · simp [Pool.closed]
    · intro i hi
      dsimp only
      by_cases hij : i = j
      · subst hij; exact setFn_self _ _ _
      · rw [setFn_ne _ _ hij]; exact exits i hi
    · simp
    · simp
    · intro j' hj'
      cases hj'
      intro i hi
      dsimp only
      by_cases hij : i = j
      · subst hij; exact setFn_self _ _ _
      · rw [setFn_ne _ _ hij]; exact flagged j hst i (by omega)
    · simp
  | flagged hst =>
    refine ⟨rfl, rfl, by simp [← fifo], by simpa using counts, bound, ?_, exits, ?_, ?_, ?_, ?_⟩
    · simp [Pool.closed]
    · intro j hj; cases hj; intro i hi; omega
    · simp
    · simp
    · intro j hj; cases hj; exact flagged _ hst
  | join j hst hj hw =>
    refine ⟨rfl, rfl, by simp [← fifo], by simpa using counts, bound, ?_, exits, ?_, ?_, ?_, ?_⟩
    · simp [Pool.closed]
    · intro j' hj'
      cases hj'
      intro i hi
      by_cases hij : i = j
      · subst hij; exact hw
      · exact joined j hst i (by omega)
    · simp
    · simp
    · intro j' hj'; cases hj'; exact allFlagged j hst
  | stopped hst =>
    refine ⟨rfl, rfl, by simp [← fifo], by simpa using counts, bound, ?_, exits, ?_, ?_, ?_, ?_⟩
    · simp [Pool.closed]
    · simp
    · intro _; exact joined _ hst
    · simp
    · simp

theorem PInv_run {size cap : Nat} {tr : List PLabel} {p : Pool} (h : PRun size cap tr p) :
    PInv size cap tr p := by
  induction h with
  | init => exact PInv_init size cap
  | step _ hs ih => exact PInv_step ih hs

theorem PRunCareful.run {size cap : Nat} {tr : List PLabel} {p : Pool}
    (h : PRunCareful size cap tr p) : PRun size cap tr p := by
  induction h with
  | init => exact .init
  | step _ hs _ ih => exact .step ih hs

/-- Without late puts the queue of a closed pool is empty. -/
theorem PRunCareful.closed_empty {size cap : Nat} {tr : List PLabel} {p : Pool}
    (h : PRunCareful size cap tr p) : p.closed = true → p.queue = [] := by
  induction h with
  | init => simp [Pool.init]
  | step _ hs hc ih =>
    intro hcl
    cases hs with
    | put l room => exact absurd rfl (hc hcl l)
    | take i l q hi hw hq => have := ih hcl; rw [hq] at this; cases this
    | handled => exact ih hcl
    | expire => exact ih hcl
    | again => exact ih hcl
    | exit => exact ih hcl
    | stopCall => simp [Pool.closed] at hcl
    | drained hs hq => exact hq
    | setFlag j hs hj => exact ih (by simp [Pool.closed, hs])
    | flagged hs => exact ih (by simp [Pool.closed, hs])
    | join j hs hj hw => exact ih (by simp [Pool.closed, hs])
    | stopped hs => exact ih (by simp [Pool.closed, hs])

end Polog
