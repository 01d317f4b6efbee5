import Verif.Registry.Spec

namespace Polog

/-- No stale entries: every identity in the registry was given out. -/
structure FRegistry.WF (r : FRegistry) : Prop where
  dict : Dict.WF r.decorated
  dec : ∀ i, r.next ≤ i → Dict.get? i r.decorated = none
  unl : ∀ i, r.next ≤ i → Dict.get? i r.unlogged = none
  forb : ∀ i ∈ r.forbidden, i < r.next
  meth : ∀ i ∈ r.methods, i < r.next
  vdec : ∀ i o, Dict.get? i r.decorated = some o → o.id < r.next
  vunl : ∀ i o, Dict.get? i r.unlogged = some o → o.id < r.next

theorem FRegistry.WF_empty : FRegistry.WF .empty :=
  ⟨Dict.WF_nil, fun _ _ => rfl, fun _ _ => rfl, fun _ h => (by cases h), fun _ h => (by cases h),
    fun _ _ h => (by cases h), fun _ _ h => (by cases h)⟩

/-- What decorators Polog sees on a function. -/
inductive Seg where
  | bare
  | logged (d : Deco) (own : Bool)
  | unlogged (full : Option Bool)

/-- `f` is `o` with the decorators `s`, and the registry knows it. -/
def Seg.Is (r : FRegistry) (o f : FObj) : Seg → Prop
  | .bare => f = o ∧ o.id ∉ r.forbidden ∧ o.id ∉ r.methods
  | .logged d own => ∃ i, f = .logged i d o ∧ i ≠ o.id ∧ i < r.next ∧ Dict.get? i r.decorated = some o ∧
      o.id ∉ r.forbidden ∧ (o.id ∈ r.methods ↔ own = false)
  | .unlogged full => ∃ i, f = .unlogged i full o ∧ i ≠ o.id ∧ i < r.next ∧ Dict.get? i r.decorated = none ∧
      Dict.get? i r.unlogged = some o ∧ o.id ∈ r.forbidden

/-- `o` itself is not a wrapper Polog knows. -/
structure BaseFn (r : FRegistry) (o : FObj) : Prop where
  lt : o.id < r.next
  dec : Dict.get? o.id r.decorated = none
  unl : Dict.get? o.id r.unlogged = none

/-- What a decorator makes of what is already there. -/
def Seg.next : Layer → Seg → Seg
  | .log d, .bare => .logged d true
  | .log d, .logged _ _ => .logged d true
  | .log _, .unlogged _ => .unlogged none
  | .cls d, .bare => .logged d false
  | .cls _, .logged d true => .logged d true
  | .cls d, .logged _ false => .logged d false
  | .cls _, .unlogged _ => .unlogged none
  | .unlog full, _ => .unlogged full
  | .other, _ => .bare

theorem original_base {r : FRegistry} {o : FObj} (h : BaseFn r o) : r.original o = o := by
  rw [FRegistry.original, h.dec, h.unl]

theorem original_of {r : FRegistry} {o f : FObj} {s : Seg} (hb : BaseFn r o) (h : s.Is r o f) :
    r.original f = o := by
  cases s with
  | bare => rw [h.1]; exact original_base hb
  | logged d own =>
    obtain ⟨i, rfl, _, _, h1, _⟩ := h
    rw [FRegistry.original]
    simp only [FObj.id]
    rw [h1]
  | unlogged full =>
    obtain ⟨i, rfl, _, _, h1, h2, _⟩ := h
    rw [FRegistry.original]
    simp only [FObj.id]
    rw [h1, h2]

theorem id_lt {r : FRegistry} {o f : FObj} {s : Seg} (hb : BaseFn r o) (h : s.Is r o f) : f.id < r.next := by
  cases s with
  | bare => rw [h.1]; exact hb.lt
  | logged d own => obtain ⟨i, rfl, _, h1, _⟩ := h; exact h1
  | unlogged full => obtain ⟨i, rfl, _, h1, _⟩ := h; exact h1

/-- Nothing but `f`, its base and new objects is touched. -/
structure Frame (r r' : FRegistry) (o f : FObj) : Prop where
  le : r.next ≤ r'.next
  dec : ∀ i, i < r.next → i ≠ f.id → Dict.get? i r'.decorated = Dict.get? i r.decorated
  unl : ∀ i, i < r.next → Dict.get? i r'.unlogged = Dict.get? i r.unlogged
  forb : ∀ i, i ≠ o.id → (i ∈ r'.forbidden ↔ i ∈ r.forbidden)
  meth : ∀ i, i ≠ o.id → (i ∈ r'.methods ↔ i ∈ r.methods)

theorem WF_next {r : FRegistry} (h : r.WF) : ({ r with next := r.next + 1 } : FRegistry).WF :=
  ⟨h.dict, fun i hi => h.dec i (by simp only at hi; omega), fun i hi => h.unl i (by simp only at hi; omega),
    fun i hi => Nat.lt_succ_of_lt (h.forb i hi), fun i hi => Nat.lt_succ_of_lt (h.meth i hi),
    fun i o hi => Nat.lt_succ_of_lt (h.vdec i o hi), fun i o hi => Nat.lt_succ_of_lt (h.vunl i o hi)⟩

theorem original_lt {r : FRegistry} (h : r.WF) {f : FObj} (hf : f.id < r.next) : (r.original f).id < r.next := by
  rw [FRegistry.original]
  split
  · next o e => exact h.vdec _ _ e
  · split
    · next o e => exact h.vunl _ _ e
    · exact hf

theorem WF_remove {r : FRegistry} (h : r.WF) (f : FObj) : (r.remove f).WF := by
  rw [FRegistry.remove]
  split
  · refine ⟨Dict.WF_erase h.dict, ?_, h.unl, h.forb, ?_, ?_, h.vunl⟩
    · intro i hi
      simp only
      rw [Dict.get?_erase h.dict]
      split
      · rfl
      · exact h.dec i hi
    · intro i hi
      exact h.meth i (List.mem_filter.mp hi).1
    · intro i o hi
      simp only at hi
      rw [Dict.get?_erase h.dict] at hi
      split at hi
      · cases hi
      · exact h.vdec i o hi
  · exact h

theorem remove_next (r : FRegistry) (f : FObj) : (r.remove f).next = r.next := by
  rw [FRegistry.remove]; split <;> rfl

theorem forbid_next (r : FRegistry) (f : FObj) : (r.forbid f).next = r.next := by
  rw [FRegistry.forbid]; split <;> rfl

theorem WF_forbid {r : FRegistry} (h : r.WF) {f : FObj} (hf : f.id < r.next) : (r.forbid f).WF := by
  rw [FRegistry.forbid]
  split
  · exact h
  · refine ⟨h.dict, h.dec, h.unl, ?_, h.meth, h.vdec, h.vunl⟩
    intro i hi
    rcases List.mem_cons.mp hi with rfl | hi
    · exact original_lt h hf
    · exact h.forb i hi

theorem WF_add {r : FRegistry} (h : r.WF) {w o : FObj} (hw : w.id < r.next) (ho : o.id < r.next) (m : Bool) :
    (r.add w o m).WF := by
  refine ⟨Dict.WF_set h.dict, ?_, h.unl, h.forb, ?_, ?_, h.vunl⟩
  · intro i hi
    simp only [FRegistry.add] at hi ⊢
    rw [Dict.get?_set_ne (by omega)]
    exact h.dec i hi
  · intro i hi
    simp only [FRegistry.add] at hi ⊢
    split at hi
    · rcases List.mem_cons.mp hi with rfl | hi
      · exact ho
      · exact h.meth i hi
    · exact h.meth i hi
  · intro i o' hi
    simp only [FRegistry.add] at hi ⊢
    rw [Dict.get?_set] at hi
    split at hi
    · cases hi; exact ho
    · exact h.vdec i o' hi

theorem WF_addUnlogged {r : FRegistry} (h : r.WF) {w o : FObj} (hw : w.id < r.next) (ho : o.id < r.next) :
    (r.addUnlogged w o).WF := by
  refine ⟨h.dict, h.dec, ?_, h.forb, h.meth, h.vdec, ?_⟩
  · intro i hi
    simp only [FRegistry.addUnlogged] at hi ⊢
    rw [Dict.get?_set_ne (by omega)]
    exact h.unl i hi
  · intro i o' hi
    simp only [FRegistry.addUnlogged] at hi ⊢
    rw [Dict.get?_set] at hi
    split at hi
    · cases hi; exact ho
    · exact h.vunl i o' hi

theorem WF_unlogFn {r : FRegistry} (h : r.WF) (full : Option Bool) {f : FObj} (hf : f.id < r.next) :
    (r.unlogFn full f).2.WF ∧ (r.unlogFn full f).1.id < (r.unlogFn full f).2.next := by
  rw [FRegistry.unlogFn]
  dsimp only
  split
  · have h1 : ((r.remove f).forbid (r.original f)).WF :=
      WF_forbid (WF_remove h f) (by rw [remove_next]; exact original_lt h hf)
    have h2 : ((r.remove f).forbid (r.original f)).next = r.next := by rw [forbid_next, remove_next]
    refine ⟨WF_addUnlogged (WF_next h1) ?_ ?_, ?_⟩
    · exact Nat.lt_succ_self _
    · dsimp only; rw [h2]; exact Nat.lt_succ_of_lt (original_lt h hf)
    · exact Nat.lt_succ_self _
  · have h1 : (r.forbid f).WF := WF_forbid h hf
    refine ⟨WF_addUnlogged (WF_next h1) ?_ ?_, ?_⟩
    · exact Nat.lt_succ_self _
    · dsimp only; rw [forbid_next]; exact Nat.lt_succ_of_lt hf
    · exact Nat.lt_succ_self _

theorem WF_logFn {r : FRegistry} (h : r.WF) (d : Deco) (m : Bool) {f : FObj} (hf : f.id < r.next) :
    (r.logFn d m f).2.WF ∧ (r.logFn d m f).1.id < (r.logFn d m f).2.next := by
  rw [FRegistry.logFn]
  have h1 := WF_next h
  have ho := original_lt h hf
  have hadd : ∀ g : FObj, ((({ r with next := r.next + 1 } : FRegistry).remove g).add
      (.logged r.next d (r.original f)) (r.original f) m).WF := by
    intro g
    refine WF_add (WF_remove h1 g) ?_ ?_ m
    · rw [remove_next]; exact Nat.lt_succ_self _
    · rw [remove_next]; exact Nat.lt_succ_of_lt ho
  have hlt : ∀ g : FObj, (FObj.logged r.next d (r.original f)).id <
      ((({ r with next := r.next + 1 } : FRegistry).remove g).add
      (.logged r.next d (r.original f)) (r.original f) m).next := by
    intro g
    change r.next < (({ r with next := r.next + 1 } : FRegistry).remove g).next
    rw [remove_next]; exact Nat.lt_succ_self _
  rw [FRegistry.choose]
  split
  · exact WF_unlogFn h1 none (Nat.lt_succ_of_lt ho)
  · split
    · split
      · exact ⟨hadd f, hlt f⟩
      · split
        · exact ⟨h1, Nat.lt_succ_of_lt hf⟩
        · exact ⟨hadd f, hlt f⟩
    · exact ⟨hadd _, hlt _⟩

theorem WF_apply {r : FRegistry} (h : r.WF) (l : Layer) {f : FObj} (hf : f.id < r.next) :
    (l.apply f r).2.WF ∧ (l.apply f r).1.id < (l.apply f r).2.next := by
  cases l with
  | log d => exact WF_logFn h d false hf
  | cls d => exact WF_logFn h d true hf
  | unlog full => exact WF_unlogFn h full hf
  | other => exact ⟨WF_next h, Nat.lt_succ_self _⟩

theorem WF_defFn {r : FRegistry} (h : r.WF) : r.defFn.2.WF := WF_next h

/-! ### One decorator -/

theorem remove_dec {r : FRegistry} (h : r.WF) {o f : FObj} (hb : BaseFn r o) (ho : r.original f = o) (i : Nat) :
    Dict.get? i (r.remove f).decorated = if i = f.id then none else Dict.get? i r.decorated := by
  rw [FRegistry.remove, FRegistry.isDecorator, ho]
  by_cases e : f.id = o.id
  · rw [if_neg (by simp [e])]
    split
    · next hi => rw [hi, e]; exact hb.dec
    · rfl
  · rw [if_pos (by simp [e])]
    simp only
    rw [Dict.get?_erase h.dict]
    simp only [eq_comm]

theorem remove_meth {r : FRegistry} {o f : FObj} (ho : r.original f = o) (i : Nat) :
    i ∈ (r.remove f).methods ↔ i ∈ r.methods ∧ (f.id = o.id ∨ i ≠ o.id) := by
  rw [FRegistry.remove, FRegistry.isDecorator, ho]
  by_cases e : f.id = o.id
  · rw [if_neg (by simp [e])]
    simp [e]
  · rw [if_pos (by simp [e])]
    simp [e]

theorem remove_rest (r : FRegistry) (f : FObj) :
    (r.remove f).unlogged = r.unlogged ∧ (r.remove f).forbidden = r.forbidden := by
  rw [FRegistry.remove]; split <;> exact ⟨rfl, rfl⟩

theorem BaseFn_remove {r : FRegistry} (h : r.WF) {o f : FObj} (hb : BaseFn r o) (ho : r.original f = o) :
    BaseFn (r.remove f) o := by
  refine ⟨by rw [remove_next]; exact hb.lt, ?_, ?_⟩
  · rw [remove_dec h hb ho]
    split
    · rfl
    · exact hb.dec
  · rw [(remove_rest r f).1]; exact hb.unl

theorem forbid_forb {r : FRegistry} {o : FObj} (hb : BaseFn r o) (i : Nat) :
    i ∈ (r.forbid o).forbidden ↔ i = o.id ∨ i ∈ r.forbidden := by
  rw [FRegistry.forbid, original_base hb, FRegistry.isForbidden, original_base hb]
  by_cases e : o.id ∈ r.forbidden
  · rw [if_pos (by simpa using e)]
    constructor
    · exact Or.inr
    · rintro (rfl | h)
      · exact e
      · exact h
  · rw [if_neg (by simpa using e)]
    exact List.mem_cons

theorem forbid_rest (r : FRegistry) (f : FObj) :
    (r.forbid f).unlogged = r.unlogged ∧ (r.forbid f).decorated = r.decorated ∧
      (r.forbid f).methods = r.methods := by
  rw [FRegistry.forbid]; split <;> exact ⟨rfl, rfl, rfl⟩

theorem id_eq_iff {r : FRegistry} {o f : FObj} {s : Seg} (h : s.Is r o f) : f.id = o.id ↔ f = o := by
  constructor
  · intro e
    cases s with
    | bare => exact h.1
    | logged d own => obtain ⟨i, rfl, h1, _⟩ := h; exact absurd e h1
    | unlogged full => obtain ⟨i, rfl, h1, _⟩ := h; exact absurd e h1
  · rintro rfl; rfl

theorem unlogFn_eq {r : FRegistry} {o f : FObj} (ho : r.original f = o) (he : f.id = o.id → f = o)
    (full : Option Bool) :
    r.unlogFn full f = (.unlogged r.next full o,
      ({ (r.remove f).forbid o with next := r.next + 1 } : FRegistry).addUnlogged (.unlogged r.next full o) o) := by
  by_cases e : f = o
  · subst e
    have hd : r.isDecorator f = false := by rw [FRegistry.isDecorator, ho]; simp
    have hr : r.remove f = r := by rw [FRegistry.remove, hd]; rfl
    rw [FRegistry.unlogFn, hd, hr]
    dsimp only
    rw [if_neg (by decide), forbid_next]
  · have hd : r.isDecorator f = true := by
      rw [FRegistry.isDecorator, ho]
      simpa using fun h => e (he h)
    rw [FRegistry.unlogFn, hd, ho]
    dsimp only
    rw [if_pos rfl]
    dsimp only
    rw [forbid_next, remove_next]

theorem unlogFn_step {r : FRegistry} (h : r.WF) {o f : FObj} (hb : BaseFn r o) (ho : r.original f = o)
    (he : f.id = o.id → f = o) (hlt : f.id < r.next) (full : Option Bool) :
    (Seg.unlogged full).Is (r.unlogFn full f).2 o (r.unlogFn full f).1 ∧ BaseFn (r.unlogFn full f).2 o ∧
      Frame r (r.unlogFn full f).2 o f := by
  have hb1 := BaseFn_remove h hb ho
  obtain ⟨e1, e2, e3⟩ := forbid_rest (r.remove f) o
  obtain ⟨e4, e5⟩ := remove_rest r f
  have hn : r.next ≠ o.id := Nat.ne_of_gt hb.lt
  have hdec : ∀ i, Dict.get? i ((r.remove f).forbid o).decorated =
      if i = f.id then none else Dict.get? i r.decorated := by
    intro i; rw [e2, remove_dec h hb ho]
  have hforb : ∀ i, i ∈ ((r.remove f).forbid o).forbidden ↔ i = o.id ∨ i ∈ r.forbidden := by
    intro i; rw [forbid_forb hb1, e5]
  rw [unlogFn_eq ho he]
  refine ⟨⟨r.next, rfl, hn, Nat.lt_succ_self _, ?_, ?_, ?_⟩, ⟨Nat.lt_succ_of_lt hb.lt, ?_, ?_⟩,
    ⟨Nat.le_succ _, ?_, ?_, ?_, ?_⟩⟩
  · change Dict.get? r.next ((r.remove f).forbid o).decorated = none
    rw [hdec, if_neg (by omega)]
    exact h.dec _ (Nat.le_refl _)
  · exact Dict.get?_set_self _ _ _
  · exact (hforb _).mpr (.inl rfl)
  · change Dict.get? o.id ((r.remove f).forbid o).decorated = none
    rw [hdec]
    split
    · rfl
    · exact hb.dec
  · change Dict.get? o.id (Dict.set r.next o ((r.remove f).forbid o).unlogged) = none
    rw [Dict.get?_set_ne hn, e1, e4]
    exact hb.unl
  · intro i _ hi
    change Dict.get? i ((r.remove f).forbid o).decorated = _
    rw [hdec, if_neg hi]
  · intro i hi
    change Dict.get? i (Dict.set r.next o ((r.remove f).forbid o).unlogged) = _
    rw [Dict.get?_set_ne (by omega), e1, e4]
  · intro i hi
    change i ∈ ((r.remove f).forbid o).forbidden ↔ _
    rw [hforb]
    simp [hi]
  · intro i hi
    change i ∈ ((r.remove f).forbid o).methods ↔ _
    rw [e3, remove_meth ho]
    simp [hi]

theorem Seg.Is_next {r : FRegistry} {o f : FObj} {s : Seg} (hs : s.Is r o f) :
    s.Is { r with next := r.next + 1 } o f := by
  cases s with
  | bare => exact hs
  | logged d own =>
    obtain ⟨i, h1, h2, h3, h4⟩ := hs
    exact ⟨i, h1, h2, Nat.lt_succ_of_lt h3, h4⟩
  | unlogged full =>
    obtain ⟨i, h1, h2, h3, h4⟩ := hs
    exact ⟨i, h1, h2, Nat.lt_succ_of_lt h3, h4⟩

theorem BaseFn_next {r : FRegistry} {o : FObj} (hb : BaseFn r o) : BaseFn { r with next := r.next + 1 } o :=
  ⟨Nat.lt_succ_of_lt hb.lt, hb.dec, hb.unl⟩

theorem Frame_next {r : FRegistry} (o f : FObj) : Frame r { r with next := r.next + 1 } o f :=
  ⟨Nat.le_succ _, fun _ _ _ => rfl, fun _ _ => rfl, fun _ _ => Iff.rfl, fun _ _ => Iff.rfl⟩

/-- A new wrapper in the registry instead of the old one. -/
theorem replace_step {r : FRegistry} (h : r.WF) {o f : FObj} {s : Seg} (hb : BaseFn r o) (hs : s.Is r o f)
    (d : Deco) (m : Bool) (hf : o.id ∉ r.forbidden) (hm : f = o → o.id ∉ r.methods) :
    (Seg.logged d (!m)).Is ((({ r with next := r.next + 1 } : FRegistry).remove f).add (.logged r.next d o) o m) o
        (.logged r.next d o) ∧
      BaseFn ((({ r with next := r.next + 1 } : FRegistry).remove f).add (.logged r.next d o) o m) o ∧
      Frame r ((({ r with next := r.next + 1 } : FRegistry).remove f).add (.logged r.next d o) o m) o f := by
  have hlt := id_lt hb hs
  have hn : r.next ≠ o.id := Nat.ne_of_gt hb.lt
  have h1 := WF_next h
  have hs1 := Seg.Is_next hs
  have hb1 := BaseFn_next hb
  have ho1 := original_of hb1 hs1
  have hdec := remove_dec h1 hb1 ho1
  have hmeth := fun i => remove_meth (i := i) ho1
  obtain ⟨e4, e5⟩ := remove_rest ({ r with next := r.next + 1 } : FRegistry) f
  have hnx := remove_next ({ r with next := r.next + 1 } : FRegistry) f
  generalize ({ r with next := r.next + 1 } : FRegistry).remove f = q at hdec hmeth e4 e5 hnx
  have hmo : o.id ∉ q.methods := by
    rw [hmeth]
    rintro ⟨h2, h3 | h3⟩
    · exact hm ((id_eq_iff hs).mp h3) h2
    · exact h3 rfl
  refine ⟨⟨r.next, rfl, hn, ?_, ?_, ?_, ?_⟩, ⟨?_, ?_, ?_⟩, ⟨?_, ?_, ?_, ?_, ?_⟩⟩
  · change r.next < q.next
    rw [hnx]; exact Nat.lt_succ_self _
  · exact Dict.get?_set_self _ _ _
  · change o.id ∉ q.forbidden
    rw [e5]; exact hf
  · cases m
    · simpa [FRegistry.add] using hmo
    · simp [FRegistry.add]
  · change o.id < q.next
    rw [hnx]; exact Nat.lt_succ_of_lt hb.lt
  · change Dict.get? o.id (Dict.set r.next o q.decorated) = none
    rw [Dict.get?_set_ne hn, hdec]
    split
    · rfl
    · exact hb.dec
  · change Dict.get? o.id q.unlogged = none
    rw [e4]; exact hb.unl
  · change r.next ≤ q.next
    rw [hnx]; exact Nat.le_succ _
  · intro i hi hf
    change Dict.get? i (Dict.set r.next o q.decorated) = _
    rw [Dict.get?_set_ne (by omega), hdec, if_neg hf]
  · intro i hi
    change Dict.get? i q.unlogged = _
    rw [e4]
  · intro i hi
    change i ∈ q.forbidden ↔ _
    rw [e5]
  · intro i hi
    have : i ∈ q.methods ↔ i ∈ r.methods := by rw [hmeth]; simp [hi]
    cases m
    · exact this
    · simp only [FRegistry.add, if_true, List.mem_cons, hi, false_or]
      exact this

theorem Frame.trans_next {r r' : FRegistry} {o f : FObj} (hb : BaseFn r o) (hb' : BaseFn r' o)
    (hf : Frame { r with next := r.next + 1 } r' o o) : Frame r r' o f := by
  refine ⟨Nat.le_of_succ_le hf.le, ?_, fun i hi => hf.unl i (Nat.lt_succ_of_lt hi), hf.forb, hf.meth⟩
  intro i hi hne
  by_cases e : i = o.id
  · rw [e, hb.dec, hb'.dec]
  · exact hf.dec i (Nat.lt_succ_of_lt hi) e

/-- One decorator of Polog. -/
theorem apply_step {r : FRegistry} (h : r.WF) {o f : FObj} {s : Seg} (hb : BaseFn r o) (hs : s.Is r o f)
    (l : Layer) (hl : ¬ StackSpec.IsOther l) :
    (s.next l).Is (l.apply f r).2 o (l.apply f r).1 ∧ BaseFn (l.apply f r).2 o ∧ Frame r (l.apply f r).2 o f := by
  have ho := original_of hb hs
  have hlog : ∀ (d : Deco) (m : Bool) (t : Seg),
      t = (match s with
        | .bare => Seg.logged d (!m)
        | .logged d' own => if own && m then Seg.logged d' true else Seg.logged d (!m)
        | .unlogged _ => .unlogged none) →
      t.Is (r.logFn d m f).2 o (r.logFn d m f).1 ∧ BaseFn (r.logFn d m f).2 o ∧ Frame r (r.logFn d m f).2 o f := by
    intro d m t ht
    have h1 := WF_next h
    have hb1 := BaseFn_next hb
    have hs1 := Seg.Is_next hs
    have ho1 := original_of hb1 hs1
    have hoo := original_base hb1
    rw [FRegistry.logFn, ho]
    rw [FRegistry.choose, FRegistry.isForbidden, hoo, FRegistry.isDecorator, FRegistry.isMethod, ho1]
    cases s with
    | bare =>
      subst ht
      obtain ⟨rfl, hf, hm⟩ := hs
      rw [if_neg (by simpa using hf), if_neg (by simp)]
      exact replace_step (s := .bare) h hb ⟨rfl, hf, hm⟩ d m hf (fun _ => hm)
    | logged d' own =>
      subst ht
      obtain ⟨i, rfl, hne, hlt, hd, hf, hm⟩ := hs
      have hs : (Seg.logged d' own).Is r o (.logged i d' o) := ⟨i, rfl, hne, hlt, hd, hf, hm⟩
      have hstep := replace_step h hb hs d m hf (fun e => absurd (congrArg FObj.id e) hne)
      rw [if_neg (by simpa using hf), if_pos (by simpa [FObj.id] using hne)]
      cases own with
      | false =>
        rw [if_pos (by simpa using hm.mpr rfl)]
        exact hstep
      | true =>
        have hm' : o.id ∉ r.methods := by simpa using hm
        rw [if_neg (by simpa using hm')]
        cases m with
        | true =>
          rw [if_pos rfl]
          exact ⟨Seg.Is_next hs, hb1, Frame_next _ _⟩
        | false =>
          rw [if_neg (by decide)]
          exact hstep
    | unlogged full =>
      subst ht
      obtain ⟨i, rfl, hne, hlt, hd, hu, hf⟩ := hs
      rw [if_pos (by simpa using hf)]
      obtain ⟨k1, k2, k3⟩ := unlogFn_step h1 hb1 hoo (fun _ => rfl) hb1.lt none
      exact ⟨k1, k2, k3.trans_next hb k2⟩
  cases l with
  | log d =>
    refine hlog d false _ ?_
    cases s with
    | bare => rfl
    | logged d' own => cases own <;> rfl
    | unlogged full => rfl
  | cls d =>
    refine hlog d true _ ?_
    cases s with
    | bare => rfl
    | logged d' own => cases own <;> rfl
    | unlogged full => rfl
  | unlog full => exact unlogFn_step h hb ho (id_eq_iff hs).mp (id_lt hb hs) full
  | other => exact absurd trivial hl

/-- Other functions keep their decorators. -/
theorem Seg.Is_frame {r r' : FRegistry} {o f o' f' : FObj} {s : Seg} (hf : Frame r r' o f)
    (hs : s.Is r o' f') (h1 : o'.id ≠ o.id) (h2 : f'.id ≠ f.id) :
    s.Is r' o' f' := by
  cases s with
  | bare =>
    obtain ⟨e, h3, h4⟩ := hs
    exact ⟨e, by rw [hf.forb _ h1]; exact h3, by rw [hf.meth _ h1]; exact h4⟩
  | logged d own =>
    obtain ⟨i, rfl, h3, h4, h5, h6, h7⟩ := hs
    refine ⟨i, rfl, h3, Nat.lt_of_lt_of_le h4 hf.le, ?_, ?_, ?_⟩
    · rw [hf.dec i h4 h2]; exact h5
    · rw [hf.forb _ h1]; exact h6
    · rw [hf.meth _ h1]; exact h7
  | unlogged full =>
    obtain ⟨i, rfl, h3, h4, h5, h6, h7⟩ := hs
    refine ⟨i, rfl, h3, Nat.lt_of_lt_of_le h4 hf.le, ?_, ?_, ?_⟩
    · rw [hf.dec i h4 h2]; exact h5
    · rw [hf.unl i h4]; exact h6
    · rw [hf.forb _ h1]; exact h7

theorem BaseFn_frame {r r' : FRegistry} {o f o' : FObj} (hf : Frame r r' o f) (hb : BaseFn r o')
    (h2 : o'.id ≠ f.id) : BaseFn r' o' :=
  ⟨Nat.lt_of_lt_of_le hb.lt hf.le, by rw [hf.dec _ hb.lt h2]; exact hb.dec, by rw [hf.unl _ hb.lt]; exact hb.unl⟩

end Polog
