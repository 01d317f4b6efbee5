import Mathlib.Logic.Relation
import Verif.Projection.Lemmas5
import Verif.Walk.Model
import Verif.Walk.Spec

/-! Invariants of the walk over a changing namespace. -/

namespace Polog

open WalkSpec Relation

variable {V : Type}

theorem leads_iff {h : Heap V} {q : List Str} {i j : Nat} : ByNames h i q j ↔ h.walk i q = some j := by
  induction q generalizing i with
  | nil =>
    constructor
    · intro hl; cases hl; rfl
    · intro hl; cases hl; exact .here _
  | cons k q ih =>
    constructor
    · intro hl
      cases hl with
      | down hc hp => simp only [Heap.walk, hc]; exact ih.1 hp
    · intro hl
      simp only [Heap.walk] at hl
      split at hl
      · cases hl
      · rename_i c hc; exact .down hc (ih.2 hl)

theorem at_iff {h : Heap V} {q : List Str} {v : V} :
    At h q v ↔ ∃ i, h.walk 0 q = some i ∧ (h.node i).value = some v := by
  unfold At; simp only [leads_iff]

theorem At_iff_val {h : Heap V} {q : List Str} {v : V} : At h q v ↔ h.val 0 q = some v := by
  rw [at_iff]
  unfold Heap.val
  cases h.walk 0 q <;> simp

theorem EnvStep.prim {h h' : Heap V} (he : EnvStep h h') : PrimG h h' ∨ PrimS h h' := by
  cases he with
  | create path i k hr hn => exact .inl (.ofC (.create i k ⟨path, hr⟩ hn))
  | setVal path i v hr => exact .inl (.setVal i v ⟨path, hr⟩)
  | delVal i hi => exact .inr (.delVal i hi)
  | prune i hi => exact .inr (.prune i hi)

theorem EnvStep.good {h h' : Heap V} (he : EnvStep h h') (hg : h.Good) : h'.Good ∧ h.next ≤ h'.next := by
  rcases he.prim with hp | hp
  · have := hp.spec hg; exact ⟨this.1, this.2.1⟩
  · have := hp.spec hg; exact ⟨this.1, Nat.le_of_eq this.2.1⟩

theorem EnvStep.parent {h h' : Heap V} (he : EnvStep h h') {j : Nat} (hj : j < h.next) :
    (h'.node j).parent = (h.node j).parent := by
  cases he with
  | create path i k hr hn =>
    rw [Heap.createChild_old k hj]
    split
    · rename_i e; subst e; rfl
    · rfl
  | setVal path i v hr => exact Heap.parent_put_value h i _ j
  | delVal i hi => exact Heap.parent_put_value h i _ j
  | prune i hi => exact (Heap.prune_rest h i j).2.1

theorem EnvStep.dead {h h' : Heap V} (he : EnvStep h h') (hg : h.Good) {i : Nat} (hd : h.Dead i) :
    h'.Dead i := by
  rcases he.prim with hp | hp
  · exact (hp.spec hg).2.2.2 i hd
  · exact hp.dead hg hd

theorem EnvStep.reach {h h' : Heap V} (he : EnvStep h h') (hg : h.Good) {i : Nat} (hr : h.Reach i) :
    h'.Reach i ∨ h'.Dead i := by
  obtain ⟨q, hq⟩ := hr
  rcases he.prim with hp | hp
  · exact .inl ⟨q, (hp.spec hg).2.2.1 0 q i hg.pos hq⟩
  · rcases (hp.spec hg).2.2.2.2 q i hq with h1 | h1
    · exact .inl ⟨q, h1⟩
    · exact .inr h1

theorem EnvStep.walk_kept {h h' : Heap V} (he : EnvStep h h') (hg : h.Good) {q : List Str} {i : Nat} {v : V}
    (hw : h.walk 0 q = some i) (hv : At h' q v) : h'.walk 0 q = some i := by
  rcases he.prim with hp | hp
  · exact (hp.spec hg).2.2.1 0 q i hg.pos hw
  · obtain ⟨j, hj, _⟩ := at_iff.1 hv
    have := (hp.spec hg).2.2.1 0 q j hj
    rw [hw] at this
    rw [hj, ← this]

theorem EnvStep.walk_same {h h' : Heap V} (he : EnvStep h h') (hg : h.Good) {q : List Str} {i j : Nat}
    (hw : h.walk 0 q = some i) (hw' : h'.walk 0 q = some j) : j = i := by
  rcases he.prim with hp | hp
  · have := (hp.spec hg).2.2.1 0 q i hg.pos hw
    rw [this] at hw'; exact (Option.some.inj hw').symm
  · have := (hp.spec hg).2.2.1 0 q j hw'
    rw [hw] at this; exact (Option.some.inj this).symm

/-- The nodes the walk still has to yield. -/
def WState.pend : WState → List Nat
  | .start => [0]
  | .layer r n => r ++ n
  | .check _ r n => r ++ n
  | .give _ r n => r ++ n
  | .after _ r n => r ++ n
  | .copy _ _ _ r n => r ++ n
  | .done => []
  | .failed => []

/-- The node being dealt with. -/
def WState.cur : WState → Option Nat
  | .check i _ _ => some i
  | .give i _ _ => some i
  | .after i _ _ => some i
  | .copy i _ _ _ _ => some i
  | _ => none

/-- The node that was yielded but whose children were not looked at yet. -/
def WState.fresh : WState → Option Nat
  | .check i _ _ => some i
  | .give i _ _ => some i
  | .after i _ _ => some i
  | _ => none

/-- Every node the walk knows is in the tree or cut off it and without handlers. -/
structure WalkRInv (s : WSys V) : Prop where
  good : s.heap.Good
  known : ∀ x, (x ∈ s.seen ∨ x ∈ s.w.pend ∨ s.w.cur = some x) → s.heap.Reach x ∨ s.heap.Dead x

theorem WalkRInv.begin {h : Heap V} (hg : h.Good) : WalkRInv (WSys.begin h) := by
  refine ⟨hg, ?_⟩
  intro x hx
  simp [WSys.begin, WState.pend, WState.cur] at hx
  subst hx
  exact .inl ⟨[], rfl⟩

theorem child_known {h : Heap V} (hg : h.Good) {i j : Nat} {k : Str} (hi : h.Reach i ∨ h.Dead i)
    (hc : (k, j) ∈ (h.node i).childs) : h.Reach j ∨ h.Dead j := by
  have hin : i < h.next := by
    rcases hi with hi | hi
    · exact hi.lt hg
    · exact hi.1
  have hget := (Dict.mem_iff_get? (hg.wf i hin) k j).1 hc
  rcases hi with ⟨q, hq⟩ | hd
  · left
    refine ⟨q ++ [k], ?_⟩
    rw [Heap.walk_append, hq]
    simp [Heap.walk_single, hget]
  · right
    have he := hg.edge i hin k j hget
    have hw : h.walk i [k] = some j := by rw [Heap.walk_single, hget]
    refine ⟨he.1, ?_, ?_⟩
    · intro hr
      exact hd.2.1 (Heap.Reach.up hg hin [k] hw hr)
    · intro ks
      have := hd.2.2 ([k] ++ ks)
      rwa [Heap.val_append h hw] at this

theorem WalkRInv.step {s s' : WSys V} (hi : WalkRInv s) (hs : RaceStep s s') : WalkRInv s' := by
  obtain ⟨hg, hk⟩ := hi
  cases hs with
  | env he =>
    refine ⟨(he.good hg).1, ?_⟩
    intro x hx
    rcases hk x hx with h1 | h1
    · exact he.reach hg h1
    · exact .inr (he.dead hg h1)
  | walk hw =>
    cases hw with
    | start => exact ⟨hg, fun x hx => hk x (by simpa [WState.pend, WState.cur] using hx)⟩
    | node =>
      refine ⟨hg, fun x hx => hk x ?_⟩
      simp [WState.pend, WState.cur] at hx ⊢
      grind
    | skip hv => exact ⟨hg, fun x hx => hk x (by simpa [WState.pend, WState.cur] using hx)⟩
    | full hv => exact ⟨hg, fun x hx => hk x (by simpa [WState.pend, WState.cur] using hx)⟩
    | call => exact ⟨hg, fun x hx => hk x (by simpa [WState.pend, WState.cur] using hx)⟩
    | iter => exact ⟨hg, fun x hx => hk x (by simpa [WState.pend, WState.cur] using hx)⟩
    | @child h i used pos rest next c sn hu k j hj =>
      refine ⟨hg, fun x hx => ?_⟩
      by_cases hxj : x = j
      · subst hxj
        exact child_known hg (hk i (.inr (.inr rfl))) (List.mem_of_getElem? hj)
      · refine hk x ?_
        simp [WState.pend, WState.cur] at hx ⊢
        grind
    | childsEnd hu hj =>
      refine ⟨hg, fun x hx => hk x ?_⟩
      simp [WState.pend, WState.cur] at hx ⊢
      grind
    | changed hu =>
      refine ⟨hg, fun x hx => hk x ?_⟩
      simp [WState.pend, WState.cur] at hx ⊢
      grind
    | nextLayer =>
      refine ⟨hg, fun x hx => hk x ?_⟩
      simp [WState.pend, WState.cur] at hx ⊢
      grind
    | stop =>
      refine ⟨hg, fun x hx => hk x ?_⟩
      simp [WState.pend, WState.cur] at hx ⊢
      grind

theorem WalkRInv.run {s s' : WSys V} (hi : WalkRInv s) (hr : ReflTransGen RaceStep s s') : WalkRInv s' := by
  induction hr with
  | refl => exact hi
  | tail _ hs ih => exact ih.step hs

/-- A handler that is being called is registered at that moment. -/
theorem WalkRInv.give_at {s : WSys V} (hi : WalkRInv s) {i : Nat} {v : V} (hc : s.w.cur = some i)
    (hv : (s.heap.node i).value = some v) : ∃ q, s.heap.walk 0 q = some i ∧ At s.heap q v := by
  rcases hi.known i (.inr (.inr hc)) with ⟨q, hq⟩ | hd
  · exact ⟨q, hq, i, leads_iff.2 hq, hv⟩
  · have := hd.2.2 []
    simp [Heap.val, Heap.walk, hv] at this

theorem CalmStep.race {s s' : WSys V} (hs : CalmStep s s') : RaceStep s s' := by
  cases hs with
  | walk hw => exact .walk hw
  | env he hc => exact .env he

/-- Each node is yielded once, and the children of a node are looked at once. -/
structure WalkCInv (s : WSys V) : Prop where
  base : WalkRInv s
  nodup : (s.seen ++ s.w.pend).Nodup
  par : ∀ x, x ∈ s.seen ++ s.w.pend → x = 0 ∨
    ∃ p, p ∈ s.seen ∧ s.w.fresh ≠ some p ∧ (s.heap.node x).parent = some p
  cur : ∀ i, s.w.cur = some i → i ∈ s.seen
  copy : ∀ i used pos r n, s.w = .copy i used pos r n → used = (s.heap.node i).childs.length ∧
    ∀ x, x ∈ s.seen ++ (r ++ n) → (s.heap.node x).parent = some i →
      ∃ m, m < pos ∧ ∃ k, (s.heap.node i).childs[m]? = some (k, x)
  ok : s.w ≠ .failed

theorem Heap.Good.childs_inj {h : Heap V} (hg : h.Good) {i : Nat} (hi : i < h.next) {m m' : Nat} {k k' : Str}
    {x : Nat} (h1 : (h.node i).childs[m]? = some (k, x)) (h2 : (h.node i).childs[m']? = some (k', x)) :
    m = m' := by
  have hw := hg.wf i hi
  have g1 := (Dict.mem_iff_get? hw k x).1 (List.mem_of_getElem? h1)
  have g2 := (Dict.mem_iff_get? hw k' x).1 (List.mem_of_getElem? h2)
  have e1 := hg.edge i hi k x g1
  have e2 := hg.edge i hi k' x g2
  have : k' = k := Option.some.inj (e2.2.2.1.symm.trans e1.2.2.1)
  subst this
  unfold Dict.WF Dict.keys at hw
  have k1 : ((h.node i).childs.map Prod.fst)[m]? = some k' := by simp [h1]
  have k2 : ((h.node i).childs.map Prod.fst)[m']? = some k' := by simp [h2]
  rw [List.getElem?_eq_some_iff] at k1 k2
  obtain ⟨l1, e1⟩ := k1
  obtain ⟨l2, e2⟩ := k2
  exact (List.getElem_inj hw).1 (e1.trans e2.symm)

theorem WalkRInv.lt {s : WSys V} (hi : WalkRInv s) {x : Nat}
    (hx : x ∈ s.seen ∨ x ∈ s.w.pend ∨ s.w.cur = some x) : x < s.heap.next := by
  rcases hi.known x hx with h1 | h1
  · exact h1.lt hi.good
  · exact h1.1

theorem WalkCInv.begin {h : Heap V} (hg : h.Good) : WalkCInv (WSys.begin h) := by
  refine ⟨WalkRInv.begin hg, ?_, ?_, ?_, ?_, ?_⟩
  · simp [WSys.begin, WState.pend]
  · intro x hx; simp [WSys.begin, WState.pend] at hx; exact .inl hx
  · intro i hi; simp [WSys.begin, WState.cur] at hi
  · intro i used pos r n h1; simp [WSys.begin] at h1
  · simp [WSys.begin]

theorem WalkCInv.step {s s' : WSys V} (hi : WalkCInv s) (hs : CalmStep s s') : WalkCInv s' := by
  have hb' := hi.base.step hs.race
  obtain ⟨hb, hnd, hpar, hcur, hcp, hok⟩ := hi
  cases hs with
  | env he hc =>
    refine ⟨hb', hnd, ?_, hcur, ?_, hok⟩
    · intro x hx
      rcases hpar x hx with h1 | ⟨p, hp, hf, he'⟩
      · exact .inl h1
      · refine .inr ⟨p, hp, hf, ?_⟩
        rw [he.parent (hb.lt (by simpa [or_assoc] using Or.inl (List.mem_append.1 hx)))]
        exact he'
    · intro i used pos r n hw
      obtain ⟨h1, h2⟩ := hcp i used pos r n hw
      have hce := hc i (by rw [hw]; rfl)
      refine ⟨by show used = _; rw [hce]; exact h1, ?_⟩
      intro x hx hpx
      have hlt : x < s.heap.next := hb.lt (by
        rw [hw]
        simp [WState.pend] at hx ⊢
        grind)
      have hpx' : (s.heap.node x).parent = some i := by rw [← he.parent hlt]; exact hpx
      obtain ⟨m, hm, k, hk⟩ := h2 x hx hpx'
      exact ⟨m, hm, k, by show (_ : List _)[m]? = _; rw [hce]; exact hk⟩
  | walk hw =>
    cases hw with
    | start =>
      exact ⟨hb', by simpa [WState.pend] using hnd, by simpa [WState.pend, WState.fresh] using hpar,
        by simp [WState.cur], by simp, by simp⟩
    | @node h i rest next c sn =>
      simp only [WState.pend] at hnd hpar
      refine ⟨hb', ?_, ?_, ?_, ?_, by simp⟩
      · simpa [WState.pend, List.append_assoc] using hnd
      · intro x hx
        have hx' : x ∈ sn ++ (i :: rest ++ next) := by simpa [WState.pend, List.append_assoc] using hx
        rcases hpar x hx' with h1 | ⟨p, hp, _, he⟩
        · exact .inl h1
        · refine .inr ⟨p, by simp [hp], ?_, he⟩
          simp only [WState.fresh, ne_eq, Option.some.injEq]
          rintro rfl
          simp only [List.nodup_append] at hnd
          exact hnd.2.2 _ hp _ (by simp) rfl
      · intro j hj; simp [WState.cur] at hj; subst hj; simp
      · intro a b c d e h1; simp at h1
    | skip hv =>
      exact ⟨hb', by simpa [WState.pend] using hnd, by simpa [WState.pend, WState.fresh] using hpar,
        by simpa [WState.cur] using hcur, by simp, by simp⟩
    | full hv =>
      exact ⟨hb', by simpa [WState.pend] using hnd, by simpa [WState.pend, WState.fresh] using hpar,
        by simpa [WState.cur] using hcur, by simp, by simp⟩
    | call =>
      exact ⟨hb', by simpa [WState.pend] using hnd, by simpa [WState.pend, WState.fresh] using hpar,
        by simpa [WState.cur] using hcur, by simp, by simp⟩
    | @iter h i rest next c sn =>
      refine ⟨hb', by simpa [WState.pend] using hnd, ?_, by simpa [WState.cur] using hcur, ?_, by simp⟩
      · intro x hx
        rcases hpar x hx with h1 | ⟨p, hp, _, he⟩
        · exact .inl h1
        · exact .inr ⟨p, hp, by simp [WState.fresh], he⟩
      · intro a used pos r n hw
        simp only [WState.copy.injEq] at hw
        obtain ⟨rfl, rfl, rfl, rfl, rfl⟩ := hw
        refine ⟨rfl, ?_⟩
        intro x hx hpx
        exfalso
        rcases hpar x hx with h1 | ⟨p, hp, hf, he⟩
        · subst h1
          have := hb.good.rootp
          simp only at hpx this
          rw [this] at hpx; cases hpx
        · simp only at hpx he
          rw [hpx] at he
          simp only [WState.fresh, ne_eq] at hf
          exact hf he
    | @child h i used pos rest next c sn hu k j hj =>
      simp only [WState.pend] at hnd hpar
      obtain ⟨_, h2⟩ := hcp i used pos rest next rfl
      have hin : i < h.next := hb.lt (s := ⟨h, _, _, _⟩) (.inr (.inr rfl))
      have hget := (Dict.mem_iff_get? (hb.good.wf i hin) k j).1 (List.mem_of_getElem? hj)
      have hed := hb.good.edge i hin k j hget
      have hnew : j ∉ sn ++ (rest ++ next) := by
        intro hmem
        obtain ⟨m, hm, k', hk'⟩ := h2 j hmem hed.2.1
        have := Heap.Good.childs_inj hb.good hin hk' hj
        omega
      have happ : sn ++ (rest ++ (next ++ [j])) = (sn ++ (rest ++ next)) ++ [j] := by
        simp [List.append_assoc]
      refine ⟨hb', ?_, ?_, by simpa [WState.cur] using hcur, ?_, by simp⟩
      · show (sn ++ (rest ++ (next ++ [j]))).Nodup
        rw [happ, List.nodup_append]
        refine ⟨hnd, by simp, ?_⟩
        intro a ha b hb2 e
        simp at hb2; subst hb2; subst e
        exact hnew ha
      · intro x hx
        have hx' : x ∈ (sn ++ (rest ++ next)) ++ [j] := by rw [← happ]; exact hx
        rcases List.mem_append.1 hx' with h3 | h3
        · rcases hpar x h3 with h1 | ⟨p, hp, _, he⟩
          · exact .inl h1
          · exact .inr ⟨p, hp, by simp [WState.fresh], he⟩
        · simp at h3; subst h3
          exact .inr ⟨i, hcur i rfl, by simp [WState.fresh], hed.2.1⟩
      · intro a used' pos' r n hw
        simp only [WState.copy.injEq] at hw
        obtain ⟨rfl, rfl, rfl, rfl, rfl⟩ := hw
        refine ⟨hu.symm, ?_⟩
        intro x hx hpx
        have hx' : x ∈ (sn ++ (rest ++ next)) ++ [j] := by rw [← happ]; exact hx
        rcases List.mem_append.1 hx' with h3 | h3
        · obtain ⟨m, hm, k', hk'⟩ := h2 x h3 hpx
          exact ⟨m, by omega, k', hk'⟩
        · simp at h3; subst h3
          exact ⟨pos, by omega, k, hj⟩
    | childsEnd hu hj =>
      refine ⟨hb', by simpa [WState.pend] using hnd, ?_, by simp [WState.cur], by simp, by simp⟩
      intro x hx
      rcases hpar x hx with h1 | ⟨p, hp, _, he⟩
      · exact .inl h1
      · exact .inr ⟨p, hp, by simp [WState.fresh], he⟩
    | changed hu =>
      obtain ⟨h1, _⟩ := hcp _ _ _ _ _ rfl
      exact absurd h1.symm hu
    | nextLayer =>
      refine ⟨hb', by simpa [WState.pend] using hnd, ?_, by simp [WState.cur], by simp, by simp⟩
      intro x hx
      rcases hpar x (by simpa [WState.pend] using hx) with h1 | ⟨p, hp, _, he⟩
      · exact .inl h1
      · exact .inr ⟨p, hp, by simp [WState.fresh], he⟩
    | stop =>
      refine ⟨hb', by simpa [WState.pend] using hnd, ?_, by simp [WState.cur], by simp, by simp⟩
      intro x hx
      rcases hpar x (by simpa [WState.pend] using hx) with h1 | ⟨p, hp, _, he⟩
      · exact .inl h1
      · exact .inr ⟨p, hp, by simp [WState.fresh], he⟩

end Polog
