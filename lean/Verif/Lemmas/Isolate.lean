import Verif.Spec.Schedule

/-!
# The schedule of a workload does not depend on the scheduler it is added to

`Sys.index` is the position of the function in the scheduler's list and the notes mention it; nothing else does. `erase`
forgets both; every pass commutes with it.
-/
namespace Verif.Sched

variable {W ε : Type}

def Sys.erase (s : Sys W ε) : Sys W ε :=
  { s with index := 0, notes := { conflict := none, after := [], afterAll := [], beforeAll := [] } }

def E (ss : List (Sys W ε)) : List (Sys W ε) := ss.map Sys.erase

theorem E_get (ss : List (Sys W ε)) (i : Nat) : (E ss)[i]? = ss[i]?.map Sys.erase := by
  unfold E; rw [List.getElem?_map]

theorem E_length (ss : List (Sys W ε)) : (E ss).length = ss.length := by unfold E; rw [List.length_map]

theorem E_E (ss : List (Sys W ε)) : E (E ss) = E ss := by
  unfold E; rw [List.map_map]; rfl

theorem isEmpty_E {xs ys : List (Sys W ε)} (h : E xs = E ys) : xs.isEmpty = ys.isEmpty := by
  cases xs <;> cases ys <;> first | rfl | cases h

theorem unmet_E (req : List Label) (ss : List (Sys W ε)) : unmet req (E ss) = unmet req ss := by
  unfold unmet E
  rw [List.foldl_map]
  rfl

theorem checkRequireIn_E (ss rest : List (Sys W ε)) : checkRequireIn (E ss) (E rest) = checkRequireIn ss rest := by
  induction rest with
  | nil => rfl
  | cons s rest ih =>
    show checkRequireIn (E ss) (s.erase :: E rest) = _
    unfold checkRequireIn
    dsimp only
    rw [unmet_E, ih]
    rfl

theorem propagateBarriers_E (bs : List Nat) : ∀ (ss : List (Sys W ε)),
    propagateBarriers (E ss) bs = (propagateBarriers ss bs).map E := by
  induction bs with
  | nil => intro ss; rfl
  | cons k bs ih =>
    intro ss
    unfold propagateBarriers
    rw [E_length]
    split
    · rfl
    · rw [← ih]
      congr 1
      unfold E
      apply List.ext_getElem?
      intro i
      rw [List.getElem?_mapIdx, List.getElem?_map, List.getElem?_map, List.getElem?_mapIdx]
      cases ss[i]? with
      | none => rfl
      | some s =>
        refine congrArg some ?_
        dsimp only
        split <;> rfl

theorem map_mapIdx_congr {α β γ δ : Type} (l : List α) (e : α → β) (f : Nat → β → γ) (g : Nat → α → δ) (a : γ → β) (b : δ → β)
    (h : ∀ i x, l[i]? = some x → a (f i (e x)) = b (g i x)) :
    ((l.map e).mapIdx f).map a = (l.mapIdx g).map b := by
  apply List.ext_getElem?
  intro i
  rw [List.getElem?_map, List.getElem?_mapIdx, List.getElem?_map, List.getElem?_map, List.getElem?_mapIdx]
  cases hx : l[i]? with
  | none => rfl
  | some x => exact congrArg some (h i x hx)

theorem blocks_E (ss : List (Sys W ε)) (s : Sys W ε) : blocks (E ss) s.erase = blocks ss s := by
  funext j
  unfold blocks
  rw [E_get]
  cases ss[j]? with
  | none => rfl
  | some o => rfl

theorem isImplicit_E (ss : List (Sys W ε)) : isImplicit (E ss) = isImplicit ss := by
  funext j
  unfold isImplicit
  rw [E_get]
  cases ss[j]? with
  | none => rfl
  | some o => rfl

theorem implicitHard_E (ss : List (Sys W ε)) : E (implicitHard (E ss)) = E (implicitHard ss) := by
  unfold implicitHard
  rw [show (E ss : List (Sys W ε)) = ss.map Sys.erase from rfl]
  unfold E
  apply map_mapIdx_congr
  intro i x _
  rw [show (ss.map Sys.erase) = E ss from rfl, blocks_E, show x.erase.optedOut = x.optedOut from rfl]
  split
  · rfl
  · split <;> rfl

theorem implicitSoft_E (ss : List (Sys W ε)) : E (implicitSoft (E ss)) = E (implicitSoft ss) := by
  unfold implicitSoft
  rw [show (E ss : List (Sys W ε)) = ss.map Sys.erase from rfl]
  unfold E
  apply map_mapIdx_congr
  intro i x _
  rw [show (ss.map Sys.erase) = E ss from rfl, isImplicit_E, show x.erase.optedOut = x.optedOut from rfl]
  split
  · rfl
  · split <;> rfl

theorem afterAllHits_E (ss : List (Sys W ε)) (i : Nat) (ls : List Label) : afterAllHits (E ss) i ls = afterAllHits ss i ls := by
  unfold afterAllHits
  rw [E_length]
  congr 1
  funext j
  rw [E_get]
  cases ss[j]? with
  | none => rfl
  | some o => rfl

theorem mapAfterAll_E (ss : List (Sys W ε)) : E (mapAfterAll (E ss)) = E (mapAfterAll ss) := by
  unfold mapAfterAll
  rw [show (E ss : List (Sys W ε)) = ss.map Sys.erase from rfl]
  unfold E
  apply map_mapIdx_congr
  intro i x _
  rw [show (ss.map Sys.erase) = E ss from rfl, afterAllHits_E]
  rfl

theorem beforeAllStep_E (ss : List (Sys W ε)) (i : Nat) : E (beforeAllStep (E ss) i) = E (beforeAllStep ss i) := by
  unfold beforeAllStep
  rw [E_get]
  cases hi : ss[i]? with
  | none => exact E_E ss
  | some me =>
    dsimp only [Option.map]
    rw [show (E ss : List (Sys W ε)) = ss.map Sys.erase from rfl]
    unfold E
    apply map_mapIdx_congr
    intro j x _
    split
    · rfl
    · rw [show (x.erase.tags.any fun tag => decide (tag ∈ me.erase.beforeAll)) = x.tags.any fun tag => decide (tag ∈ me.beforeAll) from rfl]
      split <;> rfl

theorem beforeHit_E (ss : List (Sys W ε)) (i : Nat) (ls : List Label) : beforeHit (E ss) i ls = beforeHit ss i ls := by
  unfold beforeHit
  rw [E_length]
  congr 1
  funext j
  rw [E_get]
  cases ss[j]? with
  | none => rfl
  | some o => rfl

theorem beforeStep_E (ss : List (Sys W ε)) (i : Nat) : E (beforeStep (E ss) i) = E (beforeStep ss i) := by
  unfold beforeStep
  rw [E_get]
  cases hi : ss[i]? with
  | none => exact E_E ss
  | some me =>
    dsimp only [Option.map]
    rw [show me.erase.hardBefore = me.hardBefore from rfl, beforeHit_E]
    rw [show (E ss : List (Sys W ε)) = ss.map Sys.erase from rfl]
    unfold E
    apply map_mapIdx_congr
    intro j x _
    by_cases h : i = j
    · simp only [if_pos h]
      split <;> rfl
    · simp only [if_neg h]
      split <;> rfl

theorem foldl_E (f : List (Sys W ε) → Nat → List (Sys W ε)) (hf : ∀ ss i, E (f (E ss) i) = E (f ss i)) (is : List Nat) :
    ∀ (xs ys : List (Sys W ε)), E xs = E ys → E (is.foldl f xs) = E (is.foldl f ys) := by
  induction is with
  | nil => intro xs ys h; exact h
  | cons i is ih =>
    intro xs ys h
    apply ih
    rw [← hf xs, ← hf ys, h]

theorem mapBeforeAll_E (xs ys : List (Sys W ε)) (h : E xs = E ys) : E (mapBeforeAll xs) = E (mapBeforeAll ys) := by
  unfold mapBeforeAll
  rw [show ys.length = xs.length by rw [← E_length ys, ← h, E_length]]
  exact foldl_E _ beforeAllStep_E _ _ _ h

theorem mapBefore_E (xs ys : List (Sys W ε)) (h : E xs = E ys) : E (mapBefore xs) = E (mapBefore ys) := by
  unfold mapBefore
  rw [show ys.length = xs.length by rw [← E_length ys, ← h, E_length]]
  exact foldl_E _ beforeStep_E _ _ _ h

theorem constrain_E (xs ys : List (Sys W ε)) (bs : List Nat) (h : E xs = E ys) :
    (constrain xs bs).map E = (constrain ys bs).map E := by
  have hp : (propagateBarriers xs bs).map E = (propagateBarriers ys bs).map E := by
    rw [← propagateBarriers_E, ← propagateBarriers_E, h]
  unfold constrain
  cases h1 : propagateBarriers xs bs with
  | error e =>
    rw [h1] at hp
    cases h2 : propagateBarriers ys bs with
    | error e' => rw [h2] at hp; cases hp; rfl
    | ok ys' => rw [h2] at hp; cases hp
  | ok xs' =>
    rw [h1] at hp
    cases h2 : propagateBarriers ys bs with
    | error e' => rw [h2] at hp; cases hp
    | ok ys' =>
      rw [h2] at hp
      have h' : E xs' = E ys' := by injection hp
      refine congrArg Except.ok ?_
      apply mapBefore_E
      rw [← mapAfterAll_E, ← mapAfterAll_E (mapBeforeAll _)]
      rw [mapBeforeAll_E _ (implicitSoft (implicitHard ys')) ?_]
      rw [← implicitSoft_E, ← implicitSoft_E (implicitHard ys'), ← implicitHard_E, ← implicitHard_E ys', h']

theorem foldlM_ext {α β : Type} {f g : β → α → Except Fail β} (h : ∀ b a, f b a = g b a) (l : List α) (b : β) :
    l.foldlM f b = l.foldlM g b := by
  rw [show f = g from funext fun b => funext fun a => h b a]

theorem addBefore_E (ss : List (Sys W ε)) (fuel : Nat) : ∀ (seen : List Nat) (i : Nat),
    addBefore (E ss) fuel seen i = addBefore ss fuel seen i := by
  induction fuel with
  | zero => intro seen i; unfold addBefore; rfl
  | succ n ih =>
    intro seen i
    unfold addBefore
    split
    · rfl
    · dsimp only
      rw [E_get]
      cases ss[i]? with
      | none => rfl
      | some s => exact foldlM_ext ih _ _

theorem pick_E (ss : List (Sys W ε)) (ids : List Nat) : pick (E ss) ids = E (pick ss ids) := by
  unfold pick
  induction ids with
  | nil => rfl
  | cons i ids ih =>
    rw [List.filterMap_cons, List.filterMap_cons, E_get]
    cases ss[i]? with
    | none => exact ih
    | some s =>
      dsimp only [Option.map]
      rw [ih]
      rfl

theorem checkRequireBefore_E (ss rest : List (Sys W ε)) : checkRequireBefore (E ss) (E rest) = checkRequireBefore ss rest := by
  induction rest with
  | nil => rfl
  | cons s rest ih =>
    show checkRequireBefore (E ss) (s.erase :: E rest) = _
    unfold checkRequireBefore
    rw [E_length, ih, show s.erase.hardAfter = s.hardAfter from rfl, foldlM_ext (addBefore_E ss ss.length)]
    simp only [pick_E, unmet_E]
    rfl

theorem directlyAfter_E (ss : List (Sys W ε)) (me : Nat) : directlyAfter (E ss) me = directlyAfter ss me := by
  unfold directlyAfter
  rw [E_length]
  congr 1
  funext i
  rw [E_get]
  cases ss[i]? with
  | none => rfl
  | some o => rfl

theorem addAfter_E (ss : List (Sys W ε)) (fuel : Nat) : ∀ (seen : List Nat) (i : Nat),
    addAfter (E ss) fuel seen i = addAfter ss fuel seen i := by
  induction fuel with
  | zero => intro seen i; unfold addAfter; rfl
  | succ n ih =>
    intro seen i
    unfold addAfter
    split
    · rfl
    · dsimp only
      rw [directlyAfter_E]
      exact foldlM_ext ih _ _

theorem checkRequireAfter_E (ss rest : List (Sys W ε)) : ∀ i, checkRequireAfter (E ss) i (E rest) = checkRequireAfter ss i rest := by
  induction rest with
  | nil => intro i; rfl
  | cons s rest ih =>
    intro i
    show checkRequireAfter (E ss) i (s.erase :: E rest) = _
    unfold checkRequireAfter
    rw [E_length, ih, directlyAfter_E, foldlM_ext fun seen _ => addAfter_E ss ss.length seen i]
    simp only [pick_E, unmet_E]
    rfl

/-! ## Ordering -/

def eraseB (b : Option (Sys W ε) × List (Sys W ε)) : Option (Sys W ε) × List (Sys W ε) := (b.1.map Sys.erase, E b.2)

def Order.erase (o : Order W ε) : Order W ε :=
  { o with rest := E o.rest, queue := E o.queue, sequential := [], parallel := [], info := o.info.map eraseB, report := [],
           trace := o.trace.map fun p => (p.1, p.2.erase) }

theorem E_filter (p : Sys W ε → Bool) (hp : ∀ s, p s.erase = p s) (ss : List (Sys W ε)) : (E ss).filter p = E (ss.filter p) := by
  unfold E
  rw [List.filter_map]
  congr 2
  funext s
  exact hp s

theorem setLast_map {α β : Type} (e : α → β) (f : β → β) (g : α → α) (h : ∀ x, f (e x) = e (g x)) (l : List α) :
    setLast (l.map e) f = (setLast l g).map e := by
  unfold setLast
  rw [List.getLast?_map]
  cases l.getLast? with
  | none => rfl
  | some x =>
    dsimp only [Option.map]
    rw [h, List.map_append, List.map_dropLast]
    rfl

theorem batchConflict_E (b : Option (Sys W ε) × List (Sys W ε)) (s : Sys W ε) :
    batchConflict (eraseB b) s.erase = batchConflict b s := by
  unfold batchConflict eraseB E
  rw [List.any_map]
  cases b.1 <;> rfl

theorem openBatch_E (o : Order W ε) (s : Sys W ε) : (o.erase.openBatch s.erase).erase = (o.openBatch s).erase := by
  unfold Order.openBatch
  show Order.erase (match (o.info.map eraseB).getLast? with | some b => if batchConflict b s.erase then o.erase.newBatch else o.erase | none => o.erase) = _
  rw [List.getLast?_map]
  have hee : (o.erase).erase = o.erase := by
    unfold Order.erase
    simp only [E_E, List.map_map]
    congr 1
    apply List.map_congr_left
    intro b _
    unfold eraseB
    dsimp only [Function.comp]
    rw [E_E]
    cases b.1 <;> rfl
  cases o.info.getLast? with
  | none => exact hee
  | some b =>
    dsimp only [Option.map]
    rw [batchConflict_E]
    split
    · have h1 : ∀ o : Order W ε, (o.newBatch).erase = { o.erase with parallelRunIf := o.parallelRunIf ++ [(none, [])], info := o.erase.info ++ [(none, [])] } := by
        intro o
        unfold Order.newBatch Order.erase
        dsimp only
        rw [List.map_append]
        rfl
      rw [h1, h1, hee]
      rfl
    · exact hee

theorem Order.erase_erase (o : Order W ε) : (o.erase).erase = o.erase := by
  unfold Order.erase
  simp only [E_E, List.map_map]
  congr 1
  apply List.map_congr_left
  intro b _
  unfold eraseB
  dsimp only [Function.comp]
  rw [E_E]
  cases b.1 <;> rfl

theorem write_E (o : Order W ε) (s : Sys W ε) (c c' : Option Conflict) :
    (o.erase.write s.erase c).erase = (o.write s c').erase := by
  have h : ∀ (o : Order W ε) (s : Sys W ε) c, (o.write s c).erase = { o.erase with
      sequentialRunIf := o.sequentialRunIf ++ [s.runIfIndex o.runIfs.length]
      runIfs := o.runIfs ++ s.runIf.toList
      parallelRunIf := setLast o.parallelRunIf fun b =>
        if s.single then (s.runIfIndex o.runIfs.length, b.2) else (b.1, b.2 ++ [s.runIfIndex o.runIfs.length])
      info := setLast (o.info.map eraseB) fun b => if s.single then (some s.erase, b.2) else (b.1, b.2 ++ [s.erase])
      trace := (o.trace.map fun p => (p.1, p.2.erase)) ++ [(o.info.length - 1, s.erase)] } := by
    intro o s c
    unfold Order.write Order.erase
    dsimp only
    rw [List.map_append, setLast_map eraseB _ (fun b => if s.single then (some s, b.2) else (b.1, b.2 ++ [s]))]
    · rfl
    · intro b
      unfold eraseB E
      split
      · rfl
      · simp
  rw [h, h, o.erase_erase]
  have hi : (o.erase.info.map eraseB) = o.info.map eraseB := congrArg Order.info o.erase_erase
  have ht : (o.erase.trace.map fun p => (p.1, p.2.erase)) = o.trace.map fun p => (p.1, p.2.erase) := congrArg Order.trace o.erase_erase
  rw [hi, ht, show o.erase.info.length = o.info.length from List.length_map ..]
  rfl

theorem relax_E (o : Order W ε) (s : Sys W ε) : (o.erase.relax s.erase).erase = (o.relax s).erase := by
  have h : ∀ (o : Order W ε) (s : Sys W ε), (o.relax s).erase = { o.erase with
      rest := ((E o.rest).map fun x => { x with softAfter := retainIds x.softAfter s.tags }).filter fun x => !x.free
      queue := E o.queue ++ ((E o.rest).map fun x => { x with softAfter := retainIds x.softAfter s.tags }).filter Sys.free
      toDelete := o.toDelete ++ s.tags } := by
    intro o s
    have hm : ((E o.rest).map fun x : Sys W ε => { x with softAfter := retainIds x.softAfter s.tags })
        = E (o.rest.map fun x => { x with softAfter := retainIds x.softAfter s.tags }) := by
      unfold E; rw [List.map_map, List.map_map]; rfl
    rw [hm, E_filter _ (fun _ => rfl), E_filter _ (fun _ => rfl)]
    unfold Order.relax Order.erase
    dsimp only
    rw [show (E (o.queue ++ _) : List (Sys W ε)) = E o.queue ++ E _ from List.map_append ..]
  rw [h, h, o.erase_erase]
  rw [show E o.erase.rest = E o.rest from E_E _, show E o.erase.queue = E o.queue from E_E _]
  rfl

theorem place_E (o : Order W ε) (s : Sys W ε) : (o.erase.place s.erase).erase = (o.place s).erase := by
  unfold Order.place
  rw [← relax_E, ← relax_E ((o.openBatch s).write s _)]
  rw [← write_E (o.erase.openBatch s.erase) s.erase none, ← write_E (o.openBatch s) s none, openBatch_E]
  rfl

theorem drain_E (fuel : Nat) : ∀ (o o' : Order W ε), o.erase = o'.erase →
    (Order.drain fuel o).map Order.erase = (Order.drain fuel o').map Order.erase := by
  induction fuel with
  | zero =>
    intro o o' h
    have hq : o.queue.isEmpty = o'.queue.isEmpty := isEmpty_E (by have := congrArg Order.queue h; exact this)
    unfold Order.drain
    rw [hq]
    split
    · exact congrArg Except.ok h
    · rfl
  | succ n ih =>
    intro o o' h
    have hq : E o.queue = E o'.queue := congrArg Order.queue h
    unfold Order.drain
    cases h1 : o.queue with
    | nil =>
      cases h2 : o'.queue with
      | nil => exact congrArg Except.ok h
      | cons s q => rw [h1, h2] at hq; cases hq
    | cons s q =>
      cases h2 : o'.queue with
      | nil => rw [h1, h2] at hq; cases hq
      | cons s' q' =>
        rw [h1, h2] at hq
        have hs : s.erase = s'.erase := by unfold E at hq; simp at hq; exact hq.1
        have hq' : E q = E q' := by unfold E at hq ⊢; simp at hq; simp [hq.2]
        dsimp only
        apply ih
        have hset : ({ o with queue := q } : Order W ε).erase = ({ o' with queue := q' } : Order W ε).erase := by
          have e1 : ∀ (o : Order W ε) q, ({ o with queue := q } : Order W ε).erase = { o.erase with queue := E q } := fun _ _ => rfl
          exact (e1 o q).trans (by rw [h, hq']; exact (e1 o' q').symm)
        rw [← place_E, ← place_E { o' with queue := q' }, hset, hs]

theorem release_E (o o' : Order W ε) (h : o.erase = o'.erase) : o.release.erase = o'.release.erase := by
  have hf : ∀ (o : Order W ε), (o.release).erase = { o.erase with
      rest := ((E o.rest).map fun x => { x with hardAfter := retainIds x.hardAfter o.toDelete }).filter fun x => !x.free
      queue := E o.queue ++ ((E o.rest).map fun x => { x with hardAfter := retainIds x.hardAfter o.toDelete }).filter Sys.free } := by
    intro o
    have hm : ((E o.rest).map fun x : Sys W ε => { x with hardAfter := retainIds x.hardAfter o.toDelete })
        = E (o.rest.map fun x => { x with hardAfter := retainIds x.hardAfter o.toDelete }) := by
      unfold E; rw [List.map_map, List.map_map]; rfl
    rw [hm, E_filter _ (fun _ => rfl), E_filter _ (fun _ => rfl)]
    unfold Order.release Order.erase
    dsimp only
    rw [show (E (o.queue ++ _) : List (Sys W ε)) = E o.queue ++ E _ from List.map_append ..]
  have h1 : E o.rest = E o'.rest := by have := congrArg Order.rest h; exact this
  have h2 : E o.queue = E o'.queue := by have := congrArg Order.queue h; exact this
  have h3 : o.toDelete = o'.toDelete := by have := congrArg Order.toDelete h; exact this
  refine (hf o).trans (Eq.trans ?_ (hf o').symm)
  rw [h, h1, h2, h3]

theorem emap_eq {α β : Type} {f : α → β} {x y : Except Fail α} (h : x.map f = y.map f) :
    (∃ e, x = .error e ∧ y = .error e) ∨ ∃ a b, x = .ok a ∧ y = .ok b ∧ f a = f b := by
  cases x with
  | error e =>
    cases y with
    | error e' => cases h; exact .inl ⟨_, rfl, rfl⟩
    | ok b => cases h
  | ok a =>
    cases y with
    | error e' => cases h
    | ok b => refine .inr ⟨a, b, rfl, rfl, ?_⟩; injection h

theorem queue_empty {o o' : Order W ε} (h : o.erase = o'.erase) : o.queue.isEmpty = o'.queue.isEmpty := by
  exact isEmpty_E (by have := congrArg Order.queue h; exact this)

theorem loop_E (fuel : Nat) : ∀ (o o' : Order W ε), o.erase = o'.erase →
    (Order.loop fuel o).map Order.erase = (Order.loop fuel o').map Order.erase := by
  induction fuel with
  | zero => intro o o' _; rfl
  | succ n ih =>
    intro o o' h
    have hql : o.queue.length = o'.queue.length := by
      rw [← E_length o.queue, ← E_length o'.queue]; exact congrArg (fun x => (Order.queue x).length) h
    have hrl : o.rest.length = o'.rest.length := by
      rw [← E_length o.rest, ← E_length o'.rest]; exact congrArg (fun x => (Order.rest x).length) h
    unfold Order.loop
    rw [hql, hrl]
    simp only [bind, Except.bind]
    rcases emap_eq (drain_E (o'.queue.length + o'.rest.length) o o' h) with ⟨e, h1, h2⟩ | ⟨a, b, h1, h2, h3⟩
    · rw [h1, h2]
    · rw [h1, h2]
      dsimp only
      have h4 := release_E a b h3
      rw [queue_empty h4]
      split
      · exact congrArg Except.ok h4
      · apply ih
        have hn : ∀ o : Order W ε, ({ o.newBatch with toDelete := [] } : Order W ε).erase
            = { o.erase with parallelRunIf := o.parallelRunIf ++ [(none, [])], info := o.erase.info ++ [(none, [])], toDelete := [] } := by
          intro o
          unfold Order.newBatch Order.erase
          dsimp only
          rw [List.map_append]
          rfl
        have h5 : a.release.parallelRunIf = b.release.parallelRunIf := by have := congrArg Order.parallelRunIf h4; exact this
        refine (hn _).trans (Eq.trans ?_ (hn _).symm)
        rw [h4, h5]

theorem init_E (xs ys : List (Sys W ε)) (h : E xs = E ys) : (Order.init xs).erase = (Order.init ys).erase := by
  have hf : ∀ (ss : List (Sys W ε)), (Order.init ss).erase = { (Order.init ([] : List (Sys W ε))).erase with
      rest := (E ss).filter fun s => !s.free, queue := (E ss).filter Sys.free } := by
    intro ss
    rw [E_filter _ (fun _ => rfl), E_filter _ (fun _ => rfl)]
    rfl
  exact (hf xs).trans (by rw [h]; exact (hf ys).symm)

theorem orderSystems_E (xs ys : List (Sys W ε)) (h : E xs = E ys) :
    (orderSystems xs).map Order.erase = (orderSystems ys).map Order.erase := by
  have hl : xs.length = ys.length := by rw [← E_length xs, h, E_length]
  have he : xs.isEmpty = ys.isEmpty := isEmpty_E h
  unfold orderSystems
  rw [he, hl]
  split
  · rfl
  · simp only [bind, Except.bind]
    have hn : E (xs.map Sys.noteAfter) = E (ys.map Sys.noteAfter) := by
      have : ∀ ss : List (Sys W ε), E (ss.map Sys.noteAfter) = E ss := by
        intro ss; unfold E; rw [List.map_map]; rfl
      rw [this, this, h]
    rcases emap_eq (loop_E (ys.length + 1) _ _ (init_E _ _ hn)) with ⟨e, h1, h2⟩ | ⟨a, b, h1, h2, h3⟩
    · rw [h1, h2]
    · rw [h1, h2]
      dsimp only
      have hr : E a.rest = E b.rest := congrArg Order.rest h3
      have hre : a.rest.isEmpty = b.rest.isEmpty := isEmpty_E hr
      rw [hre]
      split
      · exact congrArg Except.ok h3
      · have : a.rest.map (·.name) = b.rest.map (·.name) := by
          have hm : ∀ ss : List (Sys W ε), ss.map (·.name) = (E ss).map (·.name) := by
            intro ss; unfold E; rw [List.map_map]; rfl
          rw [hm, hm b.rest, hr]
        rw [this]

theorem insertSystems_E (ws : List (WSys W ε)) : ∀ (sch sch' : Scheduler W ε),
    E (insertSystems sch ws).2 = E (insertSystems sch' ws).2 := by
  induction ws with
  | nil => intro sch sch'; rfl
  | cons s rest ih =>
    intro sch sch'
    show (insertSystem sch s).2.erase :: E (insertSystems (insertSystem sch s).1 rest).2
      = (insertSystem sch' s).2.erase :: E (insertSystems (insertSystem sch' s).1 rest).2
    rw [ih (insertSystem sch s).1 (insertSystem sch' s).1]
    rfl

/-- Adding a workload to two schedulers that do not know its name: the same error, or the same plan. -/
theorem createWorkload_same (sch sch' : Scheduler W ε) (w : Workload W ε) (h : sch.contains w.name = false)
    (h' : sch'.contains w.name = false) :
    (∃ e, createWorkload sch w = .error e ∧ createWorkload sch' w = .error e) ∨
    ∃ c c', createWorkload sch w = .ok c ∧ createWorkload sch' w = .ok c' ∧ c.plan = c'.plan := by
  unfold createWorkload
  rw [if_neg (by rw [h]; decide), if_neg (by rw [h']; decide)]
  have hx := insertSystems_E w.systems sch sch'
  generalize insertSystems sch w.systems = p at hx
  generalize insertSystems sch' w.systems = p' at hx
  simp only [bind, Except.bind]
  have h1 : checkRequireIn p.2 p.2 = checkRequireIn p'.2 p'.2 := by
    rw [← checkRequireIn_E, ← checkRequireIn_E p'.2, hx]
  rw [h1]
  cases checkRequireIn p'.2 p'.2 with
  | error e => exact .inl ⟨e, rfl, rfl⟩
  | ok u =>
    dsimp only
    rcases emap_eq (constrain_E p.2 p'.2 w.barriers hx) with ⟨e, h1, h2⟩ | ⟨ss, ss', h1, h2, h3⟩
    · rw [h1, h2]; exact .inl ⟨e, rfl, rfl⟩
    · rw [h1, h2]
      dsimp only
      have hb : checkRequireBefore ss ss = checkRequireBefore ss' ss' := by
        rw [← checkRequireBefore_E, ← checkRequireBefore_E ss', h3]
      rw [hb]
      cases checkRequireBefore ss' ss' with
      | error e => exact .inl ⟨e, rfl, rfl⟩
      | ok u =>
        dsimp only
        have ha : checkRequireAfter ss 0 ss = checkRequireAfter ss' 0 ss' := by
          rw [← checkRequireAfter_E, ← checkRequireAfter_E ss', h3]
        rw [ha]
        cases checkRequireAfter ss' 0 ss' with
        | error e => exact .inl ⟨e, rfl, rfl⟩
        | ok u =>
          dsimp only
          rcases emap_eq (orderSystems_E ss ss' h3) with ⟨e, h4, h5⟩ | ⟨o, o', h4, h5, h6⟩
          · rw [h4, h5]; exact .inl ⟨e, rfl, rfl⟩
          · rw [h4, h5]
            refine .inr ⟨_, _, rfl, rfl, ?_⟩
            unfold Created.plan
            have ht : (o.trace.map fun p => (p.1, p.2.erase)) = o'.trace.map fun p => (p.1, p.2.erase) := congrArg Order.trace h6
            have hm : ∀ t : List (Nat × Sys W ε), (t.map fun p => (p.2.uid, p.1)) = (t.map fun p => (p.1, p.2.erase)).map fun p => (p.2.uid, p.1) := by
              intro t; rw [List.map_map]; rfl
            show o.trace.map _ = o'.trace.map _
            rw [hm, hm o'.trace, ht]

end Verif.Sched
