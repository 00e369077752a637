import Verif.Lemmas.StorageMap

namespace Verif.StorageMap
open Verif.Borrow
open Verif.Threads (Made)

theorem free_iff {s : St} (h : Inv s) {a : Nat} {b : Box} (hb : s.heap a = some b) :
    (∀ g ∈ s.guards, g.box ≠ a) ↔ b.excl = false ∧ b.shared = 0 := by
  constructor
  · intro hg
    have hk := h.box a b hb
    have c1 := hk.shared
    have c2 := hk.excl
    rw [show nShared s.guards a = 0 from List.countP_eq_zero.mpr fun g hgm => by simp [hg g hgm]] at c1
    rw [show nExcl s.guards a = 0 from List.countP_eq_zero.mpr fun g hgm => by simp [hg g hgm]] at c2
    refine ⟨?_, c1.symm⟩
    cases hx : b.excl with
    | false => rfl
    | true => rw [hx] at c2; simp at c2
  · intro ⟨h1, h2⟩
    exact nothing_on h hb h1 h2

theorem readable_iff {s : St} (h : Inv s) {a : Nat} {b : Box} (hb : s.heap a = some b) :
    (∀ g ∈ s.guards, g.box = a → g.excl = false) ↔ b.excl = false := by
  have hk := h.box a b hb
  have c2 := hk.excl
  constructor
  · intro hg
    rw [show nExcl s.guards a = 0 from List.countP_eq_zero.mpr fun g hgm => by
      by_cases e : g.box = a
      · simp [hg g hgm e]
      · simp [e]] at c2
    cases hx : b.excl with
    | false => rfl
    | true => rw [hx] at c2; simp at c2
  · intro hx g hgm e
    rw [hx] at c2
    simp only [Bool.false_eq_true, if_false] at c2
    have := List.countP_eq_zero.mp c2 g hgm
    simpa [e] using this

/-- A borrow, in terms of threads and guards. -/
theorem take_spec {s : St} (h : Inv s) {id : Id} {a : Nat} {b : Box} (hl : look s.map id = some a) (hb : s.heap a = some b)
    (excl : Bool) (me : Nat) :
    (¬ ThreadFits s id excl me ∧ b.take excl me = .error .wrongThread)
    ∨ (ThreadFits s id excl me ∧ ¬ Room s id excl ∧ b.take excl me = .error (if excl then .unique else .shared))
    ∨ (ThreadFits s id excl me ∧ Room s id excl ∧ ∃ b', b.take excl me = .ok b') := by
  have hk := h.box a b hb
  have hfit : ThreadFits s id excl me ↔ ((excl = true ∨ b.isSync = false) → ∀ t, b.send = some t → t = me) := by
    constructor
    · intro hf hor t ht
      have := hf a b hl hb (by rw [ht]; simp) hor
      rw [hk.home t ht, this]
    · intro hf a' b' hl' hb' hs hor
      rw [hl] at hl'; cases hl'
      rw [hb] at hb'; cases hb'
      cases ht : b.send with
      | none => exact absurd ht hs
      | some t => rw [← hf hor t ht]; exact hk.home t ht
  have hroom : Room s id excl ↔ (if excl = true ∨ (b.isSync = false ∧ b.send = none) then b.excl = false ∧ b.shared = 0
      else b.excl = false) := by
    have e1 := free_iff h hb
    have e2 := readable_iff h hb
    constructor
    · intro hr
      have := hr a b hl hb
      split
      · next hc => rw [if_pos hc] at this; exact e1.mp this
      · next hc => rw [if_neg hc] at this; exact e2.mp this
    · intro hr a' b' hl' hb'
      rw [hl] at hl'; cases hl'
      rw [hb] at hb'; cases hb'
      split
      · next hc => rw [if_pos hc] at hr; exact e1.mpr hr
      · next hc => rw [if_neg hc] at hr; exact e2.mpr hr
  rw [hfit, hroom]
  rcases take_cases b excl me with ⟨e, he, rfl, hor, t, ht, hne⟩ | ⟨hthr, hc⟩
  · exact .inl ⟨fun hf => hne (hf hor t ht), he⟩
  · refine .inr ?_
    rcases hc with ⟨h1, h2, he⟩ | ⟨h1, h2, h3, he⟩ | ⟨h1, h2, h3, h4, he⟩ | ⟨h1, h2, h3, h4, h5, he⟩ | ⟨h1, h2, h3, he⟩ | ⟨h1, h2, h3, he⟩
    · refine .inl ⟨hthr, ?_, by rw [he, h1]; rfl⟩
      rw [if_pos (.inl h1)]
      intro ⟨h3, h4⟩
      rcases h2 with h2 | h2
      · rw [h2] at h3; cases h3
      · exact h2 h4
    · refine .inr ⟨hthr, ?_, _, he⟩
      rw [if_pos (.inl h1)]
      exact ⟨h2, h3⟩
    · refine .inl ⟨hthr, ?_, by rw [he, h1]; rfl⟩
      rw [if_pos (.inr ⟨h2, h3⟩)]
      intro ⟨h5, h6⟩
      rcases h4 with h4 | h4
      · rw [h4] at h5; cases h5
      · exact h4 h6
    · refine .inr ⟨hthr, ?_, _, he⟩
      rw [if_pos (.inr ⟨h2, h3⟩)]
      exact ⟨h4, h5⟩
    · refine .inl ⟨hthr, ?_, by rw [he, h1]; rfl⟩
      rw [if_neg (by rintro (h | h); · rw [h1] at h; cases h
                     · exact h2 h), h3]
      simp
    · refine .inr ⟨hthr, ?_, _, he⟩
      rw [if_neg (by rintro (h | h); · rw [h1] at h; cases h
                     · exact h2 h)]
      exact h3

theorem typeAt_eq {s : St} {id : Id} {a : Nat} {b : Box} (hl : look s.map id = some a) (hb : s.heap a = some b) :
    typeAt s id = some b.ty := by
  unfold typeAt
  rw [hl]
  show (s.heap a).map _ = _
  rw [hb]
  rfl

/-- The borrow of the storage under `id`, completely. -/
theorem grab_spec {s : St} (h : Inv s) {id : Id} {a : Nat} (hl : look s.map id = some a) (me : Nat) (want : Option Ty) (excl : Bool)
    (named : Id) :
    ∃ ty, typeAt s id = some ty ∧
    ((¬ ThreadFits s id excl me ∧ s.grab me a want excl named = (s, .refused named .wrongThread))
    ∨ (ThreadFits s id excl me ∧ ¬ Room s id excl ∧
        s.grab me a want excl named = (s, .refused named (if excl then .unique else .shared)))
    ∨ (ThreadFits s id excl me ∧ Room s id excl ∧ (want = none ∨ want = some ty) ∧
        ∃ s', s.grab me a want excl named = (s', .guard ⟨a, ty, excl, me⟩) ∧ s'.guards = s.guards ++ [⟨a, ty, excl, me⟩] ∧ s'.map = s.map
          ∧ ∀ i, typeAt s' i = typeAt s i)
    ∨ (ThreadFits s id excl me ∧ Room s id excl ∧ (∃ t, want = some t ∧ t ≠ ty) ∧ s.grab me a want excl named = (s, .panic))) := by
  obtain ⟨b, hb⟩ := h.boxAt hl
  refine ⟨b.ty, typeAt_eq hl hb, ?_⟩
  rcases grab_cases s me a want excl named hb with ⟨e, he, hg⟩ | ⟨b', ht, hg⟩
  · rcases take_spec h hl hb excl me with ⟨h1, h2⟩ | ⟨h1, h2, h3⟩ | ⟨h1, h2, b', h3⟩
    · rw [h2] at he; cases he; exact .inl ⟨h1, hg⟩
    · rw [h3] at he; cases he; exact .inr (.inl ⟨h1, h2, hg⟩)
    · rw [h3] at he; cases he
  · rcases take_spec h hl hb excl me with ⟨h1, h2⟩ | ⟨h1, h2, h3⟩ | ⟨h1, h2, b'', h3⟩
    · rw [h2] at ht; cases ht
    · rw [h3] at ht; cases ht
    · rcases hg with ⟨hw, hg⟩ | ⟨⟨t, hw, hne⟩, hg⟩
      · refine .inr (.inr (.inl ⟨h1, h2, ?_, _, hg, rfl, rfl, ?_⟩))
        · cases want with
          | none => exact .inl rfl
          | some t => exact .inr (by rw [hw t rfl])
        · intro i
          unfold typeAt
          show (look s.map i).bind _ = _
          cases hli : look s.map i with
          | none => rfl
          | some x =>
            show (set s.heap a (some b') x).map _ = (s.heap x).map _
            by_cases e : x = a
            · subst e
              rw [set_same, hb]
              have : b'.ty = b.ty := by
                rcases take_cases b excl me with ⟨_, he, _⟩ | ⟨_, ⟨_, _, he⟩ | ⟨_, _, _, he⟩ | ⟨_, _, _, _, he⟩ | ⟨_, _, _, _, _, he⟩ | ⟨_, _, _, he⟩ | ⟨_, _, _, he⟩⟩ <;>
                  rw [he] at ht <;> cases ht <;> rfl
              exact congrArg some this
            · rw [set_other _ _ e]
      · exact .inr (.inr (.inr ⟨h1, h2, ⟨t, hw, fun e => hne e.symm⟩, hg⟩))

/-! ## What stays in the map -/

theorem listLoop_keeps (me : Nat) (excl : Bool) : ∀ (m : List (Id × Nat)) (s : St) (gs : List Guard),
    (St.listLoop me excl m s gs).1.map = s.map ∧ (St.listLoop me excl m s gs).1.waiting = s.waiting
    ∧ (St.listLoop me excl m s gs).1.created = s.created
    ∧ (St.listLoop me excl m s gs).1.dropped = s.dropped ∧ (St.listLoop me excl m s gs).1.poisoned = s.poisoned
    ∧ (St.listLoop me excl m s gs).1.std = s.std ∧ (St.listLoop me excl m s gs).1.main = s.main
  | [], _, _ => ⟨rfl, rfl, rfl, rfl, rfl, rfl, rfl⟩
  | (id, a) :: rest, s, gs => by
    unfold St.listLoop
    obtain ⟨h1, h2, h3, h4, h5, h6, h7⟩ := grab_keeps s me a none excl id
    split
    · next s' g he =>
      obtain ⟨i1, i2, i3, i4, i5, i6, i7⟩ := listLoop_keeps me excl rest s' (gs ++ [g])
      rw [he] at h1 h2 h3 h4 h5 h6 h7
      exact ⟨i1.trans h1, i2.trans h3, i3.trans h4, i4.trans h5, i5.trans h6, i6.trans h7, i7.trans h2⟩
    · next s' o _ he =>
      obtain ⟨i1, i2, i3, i4, i5, i6, i7⟩ := listLoop_keeps me excl rest s' gs
      rw [he] at h1 h2 h3 h4 h5 h6 h7
      exact ⟨i1.trans h1, i2.trans h3, i3.trans h4, i4.trans h5, i5.trans h6, i6.trans h7, i7.trans h2⟩

theorem insert_look (s : St) (me : Nat) (r : Req) (ok : Bool) (id : Id) (hid : look s.map id ≠ none) :
    look (s.insert me r ok).1.map id = look s.map id := by
  unfold St.insert
  split
  · next a hl =>
    have h1 := (grab_keeps s me a (some r.ty) r.excl (.of r.ty)).1
    split
    · next s' he => rw [he] at h1; show look s'.map id = _; rw [h1]
    · rw [h1]
  · next hl =>
    split
    · dsimp only
      rw [(grab_keeps _ _ _ _ _ _).1]
      show look (s.map ++ [(r.id, s.next)]) id = _
      rw [look_append hl]
      split
      · next e => subst e; exact absurd hl hid
      · rfl
    · rfl

theorem insert_dropped (s : St) (me : Nat) (r : Req) (ok : Bool) : (s.insert me r ok).1.dropped = s.dropped := by
  unfold St.insert
  split
  · next a hl =>
    have h1 := (grab_keeps s me a (some r.ty) r.excl (.of r.ty)).2.2.2.2.1
    split
    · next s' he => rw [he] at h1; exact h1
    · exact h1
  · split
    · dsimp only
      rw [(grab_keeps _ _ _ _ _ _).2.2.2.2.1]
      rfl
    · rfl

theorem step_look {s s' : St} {me : Nat} {ev : Ev} {o : Out} (hs : s.step me ev = some (s', o)) {id : Id} (hev : ¬ TakesOut id ev)
    (hid : look s.map id ≠ none) : look s'.map id = look s.map id := by
  cases ev with
  | drop i =>
    simp only [St.step] at hs
    split at hs
    · cases hs; rfl
    · cases hs
  | insert i ok =>
    simp only [St.step] at hs
    split at hs
    · cases hs
    · next thr r hw =>
      split at hs
      · split at hs
        · cases hs; rfl
        · have := insert_look { s with waiting := s.waiting.eraseIdx i } me r ok id hid
          rw [Option.some.injEq] at hs; rw [hs] at this; exact this
      · cases hs
  | find i want excl =>
    simp only [St.step, Option.some.injEq] at hs
    split at hs
    · cases hs; rfl
    · unfold St.find at hs
      split at hs
      · next a _ =>
        have := (grab_keeps s me a want excl i).1
        rw [hs] at this; rw [this]
      · cases hs; rfl
  | orInsert r =>
    simp only [St.step, Option.some.injEq] at hs
    split at hs
    · cases hs; rfl
    · unfold St.orInsert at hs
      split at hs
      · next a _ =>
        have := (grab_keeps s me a (some r.ty) r.excl (.of r.ty)).1
        rw [hs] at this; rw [this]
      · split at hs <;> cases hs <;> rfl
  | addUnique t quiet =>
    simp only [St.step, Option.some.injEq] at hs
    split at hs
    · cases hs; rfl
    · unfold St.addUnique at hs
      dsimp only at hs
      split at hs
      · next hl =>
        cases hs
        show look (s.map ++ [(uniqueId t, s.next)]) id = _
        rw [look_append hl]
        split
        · next e => exact absurd e.symm hev
        · rfl
      · next a hl =>
        have hl' : look (s.map.filter fun p => decide (p.1 ≠ uniqueId t)) (uniqueId t) = none := by rw [look_filter]; simp
        have key : look ((s.take (uniqueId t) a).put (uniqueId t) (Box.make .new ⟨.new, .unique t⟩ me)).map id = look s.map id := by
          show look ((s.map.filter fun p => decide (p.1 ≠ uniqueId t)) ++ [(uniqueId t, s.next)]) id = _
          rw [look_append hl', look_filter]
          have : uniqueId t ≠ id := fun e => hev e.symm
          simp [this]
        split at hs <;> cases hs <;> exact key
  | addUniqueLocal m t =>
    simp only [St.step, Option.some.injEq] at hs
    split at hs
    · cases hs; rfl
    · unfold St.addUniqueLocal at hs
      split at hs
      · cases hs; rfl
      · split at hs
        · next hl =>
          cases hs
          show look (s.map ++ [(uniqueId t, s.next)]) id = _
          rw [look_append hl]
          split
          · next e => subst e; exact absurd hl hid
          · rfl
        · cases hs; rfl
  | removeUnique t =>
    simp only [St.step, Option.some.injEq] at hs
    split at hs
    · cases hs; rfl
    · unfold St.removeUnique at hs
      split at hs
      · cases hs; rfl
      · split at hs
        · cases hs; rfl
        · split at hs
          · cases hs; rfl
          · cases hs
            show look (s.map.filter fun p => decide (p.1 ≠ uniqueId t)) id = _
            rw [look_filter]
            have : uniqueId t ≠ id := fun e => hev e.symm
            simp [this]
  | list excl =>
    simp only [St.step, Option.some.injEq] at hs
    split at hs
    · cases hs; rfl
    · cases hs
      rw [(listLoop_keeps _ _ _ _ _).1]

theorem step_dropped {s s' : St} {me : Nat} {ev : Ev} {o : Out} (hs : s.step me ev = some (s', o)) {id : Id} (hev : ¬ TakesOut id ev) :
    s'.dropped.count id = s.dropped.count id := by
  cases ev with
  | drop i =>
    simp only [St.step] at hs
    split at hs
    · cases hs; rfl
    · cases hs
  | insert i ok =>
    simp only [St.step] at hs
    split at hs
    · cases hs
    · next thr r hw =>
      split at hs
      · split at hs
        · cases hs; rfl
        · have := insert_dropped { s with waiting := s.waiting.eraseIdx i } me r ok
          rw [Option.some.injEq] at hs; rw [hs] at this; rw [this]
      · cases hs
  | find i want excl =>
    simp only [St.step, Option.some.injEq] at hs
    split at hs
    · cases hs; rfl
    · unfold St.find at hs
      split at hs
      · next a _ =>
        have := (grab_keeps s me a want excl i).2.2.2.2.1
        rw [hs] at this; rw [this]
      · cases hs; rfl
  | orInsert r =>
    simp only [St.step, Option.some.injEq] at hs
    split at hs
    · cases hs; rfl
    · unfold St.orInsert at hs
      split at hs
      · next a _ =>
        have := (grab_keeps s me a (some r.ty) r.excl (.of r.ty)).2.2.2.2.1
        rw [hs] at this; rw [this]
      · split at hs <;> cases hs <;> rfl
  | addUnique t quiet =>
    have hne : (uniqueId t == id) = false := by simpa using fun e => hev e.symm
    simp only [St.step, Option.some.injEq] at hs
    split at hs
    · cases hs; rfl
    · unfold St.addUnique at hs
      dsimp only at hs
      split at hs
      · cases hs; rfl
      · have key : (s.dropped ++ [uniqueId t]).count id = s.dropped.count id := by
          rw [List.count_append, List.count_singleton, hne]; rfl
        split at hs <;> cases hs <;> exact key
  | addUniqueLocal m t =>
    simp only [St.step, Option.some.injEq] at hs
    split at hs
    · cases hs; rfl
    · unfold St.addUniqueLocal at hs
      split at hs
      · cases hs; rfl
      · split at hs <;> cases hs <;> rfl
  | removeUnique t =>
    have hne : (uniqueId t == id) = false := by simpa using fun e => hev e.symm
    simp only [St.step, Option.some.injEq] at hs
    split at hs
    · cases hs; rfl
    · unfold St.removeUnique at hs
      split at hs
      · cases hs; rfl
      · split at hs
        · cases hs; rfl
        · split at hs
          · cases hs; rfl
          · cases hs
            show (s.dropped ++ [uniqueId t]).count id = _
            rw [List.count_append, List.count_singleton, hne]; rfl
  | list excl =>
    simp only [St.step, Option.some.injEq] at hs
    split at hs
    · cases hs; rfl
    · cases hs
      rw [(listLoop_keeps _ _ _ _ _).2.2.2.1]

/-! ## What a box is does not change -/

def Box.kind (b : Box) : Ty × Option Nat × Bool := (b.ty, b.send, b.isSync)

theorem take_kind {b b' : Box} {excl : Bool} {me : Nat} (ht : b.take excl me = .ok b') : b'.kind = b.kind := by
  rcases take_cases b excl me with ⟨_, he, _⟩ | ⟨_, ⟨_, _, he⟩ | ⟨_, _, _, he⟩ | ⟨_, _, _, _, he⟩ | ⟨_, _, _, _, _, he⟩ | ⟨_, _, _, he⟩ | ⟨_, _, _, he⟩⟩ <;>
    rw [he] at ht <;> cases ht <;> rfl

theorem grab_kind (s : St) (me a : Nat) (want : Option Ty) (excl : Bool) (named : Id) (x : Nat) :
    ((s.grab me a want excl named).1.heap x).map Box.kind = (s.heap x).map Box.kind := by
  cases hb : s.heap a with
  | none => unfold St.grab; rw [hb]
  | some b =>
    rcases grab_cases s me a want excl named hb with ⟨e, _, he⟩ | ⟨b', ht, ⟨_, he⟩ | ⟨_, he⟩⟩
    · rw [he]
    · rw [he]
      show (set s.heap a (some b') x).map _ = _
      by_cases e : x = a
      · subst e
        rw [set_same, hb]
        exact congrArg some (take_kind ht)
      · rw [set_other _ _ e]
    · rw [he]

theorem listLoop_kind (me : Nat) (excl : Bool) (x : Nat) : ∀ (m : List (Id × Nat)) (s : St) (gs : List Guard),
    ((St.listLoop me excl m s gs).1.heap x).map Box.kind = (s.heap x).map Box.kind
  | [], _, _ => rfl
  | (id, a) :: rest, s, gs => by
    unfold St.listLoop
    have h1 := grab_kind s me a none excl id x
    split
    · next s' g he => rw [he] at h1; rw [listLoop_kind me excl x rest s' _]; exact h1
    · next s' o _ he => rw [he] at h1; rw [listLoop_kind me excl x rest s' _]; exact h1

theorem insert_kind {s : St} (h : Inv s) (me : Nat) (r : Req) (ok : Bool) {x : Nat} (hx : s.heap x ≠ none) :
    ((s.insert me r ok).1.heap x).map Box.kind = (s.heap x).map Box.kind := by
  unfold St.insert
  split
  · next a hl =>
    have h1 := grab_kind s me a (some r.ty) r.excl (.of r.ty) x
    split
    · next s' he => rw [he] at h1; exact h1
    · exact h1
  · split
    · dsimp only
      rw [grab_kind]
      show (set s.heap s.next (some _) x).map _ = _
      rw [set_other _ _ (fun e => hx (by rw [e]; exact h.fresh _ (Nat.le_refl _)))]
    · rfl

theorem step_kind {s s' : St} {me : Nat} {ev : Ev} {o : Out} (h : Inv s) (hs : s.step me ev = some (s', o)) {id : Id} {a : Nat}
    (hev : ¬ TakesOut id ev) (hl : look s.map id = some a) : (s'.heap a).map Box.kind = (s.heap a).map Box.kind := by
  obtain ⟨b, hb⟩ := h.boxAt hl
  have hnn : s.heap a ≠ none := by rw [hb]; exact fun e => by cases e
  have hnx : a ≠ s.next := fun e => hnn (by rw [e]; exact h.fresh _ (Nat.le_refl _))
  have hvals : ∀ id' a', look s.map id' = some a' → id' ≠ id → a ≠ a' := by
    intro id' a' hl' hne e
    subst e
    have : ∀ (m : List (Id × Nat)), (m.map Prod.snd).Nodup → ∀ p ∈ m, ∀ q ∈ m, p.2 = q.2 → p = q := by
      intro m
      induction m with
      | nil => intro _ p hp; cases hp
      | cons x rest ih =>
        intro hn p hp q hq he
        rw [List.map_cons, List.nodup_cons] at hn
        rcases List.mem_cons.mp hp with e1 | hp
        · rcases List.mem_cons.mp hq with e2 | hq
          · rw [e1, e2]
          · rw [e1] at he; exact absurd (List.mem_map.mpr ⟨q, hq, he.symm⟩) hn.1
        · rcases List.mem_cons.mp hq with e2 | hq
          · rw [e2] at he; exact absurd (List.mem_map.mpr ⟨p, hp, he⟩) hn.1
          · exact ih hn.2 p hp q hq he
    exact hne (congrArg Prod.fst (this _ h.vals _ (look_mem hl') _ (look_mem hl) rfl))
  cases ev with
  | drop i =>
    simp only [St.step] at hs
    split at hs
    · next g hg =>
      cases hs
      obtain ⟨b2, hb2⟩ := h.guards g (List.mem_of_getElem? hg)
      show ((match s.heap g.box with | none => s.heap | some b => set s.heap g.box _) a).map _ = _
      rw [hb2]
      dsimp only
      by_cases e : a = g.box
      · rw [e, set_same, hb2]
        split <;> rfl
      · rw [set_other _ _ e]
    · cases hs
  | insert i ok =>
    simp only [St.step] at hs
    split at hs
    · cases hs
    · next thr r hw =>
      split at hs
      · split at hs
        · cases hs; rfl
        · have h' : Inv { s with waiting := s.waiting.eraseIdx i } :=
            ⟨h.keys, h.vals, h.live, h.only, h.fresh, h.box, h.guards, fun p hp => h.waiting p (List.mem_of_mem_eraseIdx hp), h.once⟩
          have := insert_kind h' me r ok hnn
          rw [Option.some.injEq] at hs; rw [hs] at this; exact this
      · cases hs
  | find i want excl =>
    simp only [St.step, Option.some.injEq] at hs
    split at hs
    · cases hs; rfl
    · unfold St.find at hs
      split at hs
      · next x _ =>
        have := grab_kind s me x want excl i a
        rw [hs] at this; exact this
      · cases hs; rfl
  | orInsert r =>
    simp only [St.step, Option.some.injEq] at hs
    split at hs
    · cases hs; rfl
    · unfold St.orInsert at hs
      split at hs
      · next x _ =>
        have := grab_kind s me x (some r.ty) r.excl (.of r.ty) a
        rw [hs] at this; exact this
      · split at hs <;> cases hs <;> rfl
  | addUnique t quiet =>
    have hne : uniqueId t ≠ id := fun e => hev e.symm
    simp only [St.step, Option.some.injEq] at hs
    split at hs
    · cases hs; rfl
    · unfold St.addUnique at hs
      dsimp only at hs
      split at hs
      · cases hs
        show (set s.heap s.next (some _) a).map _ = _
        rw [set_other _ _ hnx]
      · next x hx =>
        have key : (((s.take (uniqueId t) x).put (uniqueId t) (Box.make .new ⟨.new, .unique t⟩ me)).heap a).map Box.kind =
            (s.heap a).map Box.kind := by
          show (set (set s.heap x none) s.next (some _) a).map _ = _
          rw [set_other _ _ hnx, set_other _ _ (hvals _ _ hx hne)]
        split at hs <;> cases hs <;> exact key
  | addUniqueLocal m t =>
    simp only [St.step, Option.some.injEq] at hs
    split at hs
    · cases hs; rfl
    · unfold St.addUniqueLocal at hs
      split at hs
      · cases hs; rfl
      · split at hs
        · cases hs
          show (set s.heap s.next (some _) a).map _ = _
          rw [set_other _ _ hnx]
        · cases hs; rfl
  | removeUnique t =>
    have hne : uniqueId t ≠ id := fun e => hev e.symm
    simp only [St.step, Option.some.injEq] at hs
    split at hs
    · cases hs; rfl
    · unfold St.removeUnique at hs
      split at hs
      · cases hs; rfl
      · next x hx =>
        split at hs
        · cases hs; rfl
        · split at hs
          · cases hs; rfl
          · cases hs
            show (set s.heap x none a).map _ = _
            rw [set_other _ _ (hvals _ _ hx hne)]
  | list excl =>
    simp only [St.step, Option.some.injEq] at hs
    split at hs
    · cases hs; rfl
    · cases hs
      exact listLoop_kind _ _ _ _ _ _

theorem boundTo_eq {s : St} {id : Id} {a : Nat} (hl : look s.map id = some a) : boundTo s id = ((s.heap a).map Box.kind).map (·.2) := by
  unfold boundTo
  rw [hl]
  show (s.heap a).map _ = _
  cases s.heap a <;> rfl

theorem boundTo_box {s : St} {id : Id} {a : Nat} {b : Box} (hl : look s.map id = some a) (hb : s.heap a = some b) :
    boundTo s id = some b.kind.2 := by
  rw [boundTo_eq hl, hb]; rfl

theorem typeAt_kind {s : St} {id : Id} {a : Nat} (hl : look s.map id = some a) : typeAt s id = ((s.heap a).map Box.kind).map (·.1) := by
  unfold typeAt
  rw [hl]
  show (s.heap a).map _ = _
  cases s.heap a <;> rfl

theorem make_bound {m : Made} {ty : Ty} {me main : Nat} (h : St.checksThread m = true → me = main) :
    (Box.make m ty me).kind = (ty, boundAs main m) := by
  cases m with
  | new => rfl
  | nonSync => rfl
  | nonSend => rw [h rfl]; rfl
  | nonSendSync => rw [h rfl]; rfl

/-! ## Listing -/

def lendable (s : St) (me : Nat) (excl : Bool) (p : Id × Nat) : Bool :=
  match s.heap p.2 with
  | none => false
  | some b => match b.take excl me with | .ok _ => true | .error _ => false

theorem listLoop_spec (me : Nat) (excl : Bool) : ∀ (m : List (Id × Nat)) (s : St) (gs : List Guard), (m.map Prod.snd).Nodup →
    (∀ p ∈ m, ∃ b, s.heap p.2 = some b) →
    ∃ new, (St.listLoop me excl m s gs).2 = gs ++ new ∧ (St.listLoop me excl m s gs).1.guards = s.guards ++ new
      ∧ (∀ g ∈ new, g.excl = excl ∧ g.thr = me) ∧ new.map (·.box) = (m.filter (lendable s me excl)).map Prod.snd
  | [], s, gs, _, _ => ⟨[], by simp [St.listLoop], by simp [St.listLoop], (fun g h => by cases h), rfl⟩
  | (id, a) :: rest, s, gs, hn, hl => by
    rw [List.map_cons, List.nodup_cons] at hn
    obtain ⟨b, hb⟩ := hl _ (.head _)
    unfold St.listLoop
    rw [List.filter_cons]
    have hlr := fun p hp => hl p (.tail _ hp)
    rcases grab_cases s me a none excl id hb with ⟨e, ht, hg⟩ | ⟨b', ht, ⟨_, hg⟩ | ⟨⟨_, h, _⟩, _⟩⟩
    · rw [hg]
      have : lendable s me excl (id, a) = false := by
        unfold lendable; rw [hb]; dsimp only; rw [ht]
      rw [this]
      simp only [Bool.false_eq_true, if_false]
      exact listLoop_spec me excl rest s gs hn.2 hlr
    · rw [hg]
      have : lendable s me excl (id, a) = true := by
        unfold lendable; rw [hb]; dsimp only; rw [ht]
      rw [this]
      simp only [if_true]
      have hne : ∀ p ∈ rest, p.2 ≠ a := fun p hp e => hn.1 (List.mem_map.mpr ⟨p, hp, e⟩)
      obtain ⟨new, h1, h2, h3, h4⟩ := listLoop_spec me excl rest
        { s with heap := set s.heap a (some b'), guards := s.guards ++ [{ box := a, ty := b.ty, excl, thr := me }] }
        (gs ++ [{ box := a, ty := b.ty, excl, thr := me }]) hn.2
        (fun p hp => by
          obtain ⟨x, hx⟩ := hlr p hp
          exact ⟨x, (set_other _ _ (hne p hp)).trans hx⟩)
      refine ⟨{ box := a, ty := b.ty, excl, thr := me } :: new, ?_, ?_, ?_, ?_⟩
      · rw [h1]; simp
      · rw [h2]; simp
      · intro g hg
        rcases List.mem_cons.mp hg with rfl | hg
        · exact ⟨rfl, rfl⟩
        · exact h3 g hg
      · rw [List.map_cons, List.map_cons, h4]
        congr 2
        refine List.filter_congr ?_
        intro p hp
        unfold lendable
        dsimp only
        rw [set_other _ _ (hne p hp)]
    · cases h

/-! ## The custom lock -/

theorem step_poison {s s' : St} {me : Nat} {ev : Ev} {o : Out} (hs : s.step me ev = some (s', o)) :
    s'.std = s.std ∧ (s.poisoned = true → s'.poisoned = true) ∧ (s'.poisoned = true → s.poisoned = true ∨ s.std = true) := by
  cases ev with
  | drop i =>
    simp only [St.step] at hs
    split at hs
    · cases hs; exact ⟨rfl, id, .inl⟩
    · cases hs
  | insert i ok =>
    simp only [St.step] at hs
    split at hs
    · cases hs
    · next thr r hw =>
      split at hs
      · split at hs
        · cases hs; exact ⟨rfl, id, .inl⟩
        · next hp =>
          rw [Option.some.injEq] at hs
          have hp' : s.poisoned = false := by simpa using hp
          unfold St.insert at hs
          split at hs
          · next a hl =>
            have hk := grab_keeps { s with waiting := s.waiting.eraseIdx i } me a (some r.ty) r.excl (.of r.ty)
            split at hs
            · next s2 he =>
              cases hs
              rw [he] at hk
              exact ⟨hk.2.2.2.2.2.2, (fun h => by rw [hp'] at h; cases h), (fun h => .inr (by rw [← h]; exact hk.2.2.2.2.2.2.symm))⟩
            · rw [hs] at hk
              exact ⟨hk.2.2.2.2.2.2, (fun h => by rw [hp'] at h; cases h), fun h => .inl (by rw [← hk.2.2.2.2.2.1]; exact h)⟩
          · split at hs
            · dsimp only at hs
              have hk := congrArg Prod.fst hs
              dsimp only at hk
              rw [← hk]
              obtain ⟨_, _, _, _, _, h6, h7⟩ := grab_keeps { { s with waiting := s.waiting.eraseIdx i }.put r.id (Box.make r.made r.ty me) with created := s.created ++ [r.id] } me
                (s.next + 1 - 1) (some r.ty) r.excl (.of r.ty)
              exact ⟨h7, (fun h => by rw [hp'] at h; cases h), fun h => .inl (by rw [← h]; exact h6.symm)⟩
            · cases hs
              exact ⟨rfl, (fun h => by rw [hp'] at h; cases h), .inr⟩
      · cases hs
  | find i want excl =>
    simp only [St.step, Option.some.injEq] at hs
    split at hs
    · cases hs; exact ⟨rfl, id, .inl⟩
    · unfold St.find at hs
      split at hs
      · next a _ =>
        have := (grab_keeps s me a want excl i)
        rw [hs] at this
        exact ⟨this.2.2.2.2.2.2, (fun h => by rw [← h]; exact this.2.2.2.2.2.1), fun h => .inl (by rw [← h]; exact this.2.2.2.2.2.1.symm)⟩
      · cases hs; exact ⟨rfl, id, .inl⟩
  | orInsert r =>
    simp only [St.step, Option.some.injEq] at hs
    split at hs
    · cases hs; exact ⟨rfl, id, .inl⟩
    · unfold St.orInsert at hs
      split at hs
      · next a _ =>
        have := (grab_keeps s me a (some r.ty) r.excl (.of r.ty))
        rw [hs] at this
        exact ⟨this.2.2.2.2.2.2, (fun h => by rw [← h]; exact this.2.2.2.2.2.1), fun h => .inl (by rw [← h]; exact this.2.2.2.2.2.1.symm)⟩
      · split at hs <;> cases hs <;> exact ⟨rfl, id, .inl⟩
  | addUnique t quiet =>
    simp only [St.step, Option.some.injEq] at hs
    split at hs
    · cases hs; exact ⟨rfl, id, .inl⟩
    · next hp =>
      have hp' : s.poisoned = false := by simpa using hp
      unfold St.addUnique at hs
      dsimp only at hs
      split at hs
      · cases hs; exact ⟨rfl, id, .inl⟩
      · split at hs
        · cases hs; exact ⟨rfl, id, .inl⟩
        · cases hs; exact ⟨rfl, (fun h => by rw [hp'] at h; cases h), .inr⟩
  | addUniqueLocal m t =>
    simp only [St.step, Option.some.injEq] at hs
    split at hs
    · cases hs; exact ⟨rfl, id, .inl⟩
    · unfold St.addUniqueLocal at hs
      split at hs
      · cases hs; exact ⟨rfl, id, .inl⟩
      · split at hs <;> cases hs <;> exact ⟨rfl, id, .inl⟩
  | removeUnique t =>
    simp only [St.step, Option.some.injEq] at hs
    split at hs
    · cases hs; exact ⟨rfl, id, .inl⟩
    · unfold St.removeUnique at hs
      split at hs
      · cases hs; exact ⟨rfl, id, .inl⟩
      · split at hs
        · cases hs; exact ⟨rfl, id, .inl⟩
        · split at hs <;> cases hs <;> exact ⟨rfl, id, .inl⟩
  | list excl =>
    simp only [St.step, Option.some.injEq] at hs
    split at hs
    · cases hs; exact ⟨rfl, id, .inl⟩
    · cases hs
      have := listLoop_keeps me excl s.map s []
      exact ⟨this.2.2.2.2.2.1, (fun h => by rw [this.2.2.2.2.1]; exact h), fun h => .inl (by rw [this.2.2.2.2.1] at h; exact h)⟩

/-! ## Typed histories -/

structure TInv (τ : Id → Ty) (s : St) : Prop where
  inv : Inv s
  clean : s.poisoned = false
  ty : ∀ id a b, look s.map id = some a → s.heap a = some b → b.ty = τ id
  req : ∀ p ∈ s.waiting, p.2.ty = τ p.2.id

theorem grab_tinv {τ : Id → Ty} {s : St} (h : TInv τ s) {id : Id} {a : Nat} (hl : look s.map id = some a) (me : Nat) (want : Option Ty)
    (excl : Bool) (named : Id) (hw : ∀ t, want = some t → t = τ id) :
    TInv τ (s.grab me a want excl named).1 ∧ (s.grab me a want excl named).2 ≠ .panic := by
  obtain ⟨b, hb⟩ := h.inv.boxAt hl
  have hi := grab_inv h.inv me want excl named hb
  have hk := grab_keeps s me a want excl named
  rcases grab_cases s me a want excl named hb with ⟨e, ht, hg⟩ | ⟨b', ht, ⟨_, hg⟩ | ⟨⟨t, h1, h2⟩, hg⟩⟩
  · rw [hg]
    exact ⟨h, fun e => by cases e⟩
  · refine ⟨⟨hi, hk.2.2.2.2.2.1.trans h.clean, ?_, fun p hp => h.req p (by rw [← hk.2.2.1]; exact hp)⟩, by rw [hg]; exact fun e => by cases e⟩
    intro i x y hx hy
    rw [hk.1] at hx
    rw [hg] at hy
    replace hy : set s.heap a (some b') x = some y := hy
    by_cases e : x = a
    · subst e
      rw [set_same] at hy
      cases hy
      rw [show b'.ty = b.ty from ?_]
      · exact h.ty i x b hx hb
      · rcases take_cases b excl me with ⟨_, he, _⟩ | ⟨_, ⟨_, _, he⟩ | ⟨_, _, _, he⟩ | ⟨_, _, _, _, he⟩ | ⟨_, _, _, _, _, he⟩ | ⟨_, _, _, he⟩ | ⟨_, _, _, he⟩⟩ <;>
          rw [he] at ht <;> cases ht <;> rfl
    · rw [set_other _ _ e] at hy
      exact h.ty i x y hx hy
  · exact absurd ((h.ty id a b hl hb).trans (hw t h1).symm) h2

theorem put_tinv {τ : Id → Ty} {s : St} (h : TInv τ s) {id : Id} (hid : look s.map id = none) {b : Box} (hb : b.shared = 0)
    (hx : b.excl = false) (hh : ∀ t, b.send = some t → t = s.main) (ht : b.ty = τ id) : TInv τ (s.put id b) := by
  refine ⟨put_inv h.inv hid hb hx hh, h.clean, ?_, h.req⟩
  intro i x y hx hy
  replace hx : look (s.map ++ [(id, s.next)]) i = some x := hx
  replace hy : set s.heap s.next (some b) x = some y := hy
  rw [look_append hid] at hx
  split at hx
  · next e =>
    cases hx
    rw [set_same] at hy
    cases hy
    rw [ht, e]
  · obtain ⟨z, hz⟩ := h.inv.boxAt hx
    have : x ≠ s.next := by
      intro e
      rw [e, h.inv.fresh _ (Nat.le_refl _)] at hz
      cases hz
    rw [set_other _ _ this] at hy
    exact h.ty i x y hx hy

theorem take_tinv {τ : Id → Ty} {s : St} (h : TInv τ s) {id : Id} {a : Nat} (hid : look s.map id = some a)
    (hg : ∀ g ∈ s.guards, g.box ≠ a) : TInv τ (s.take id a) := by
  refine ⟨take_inv h.inv hid hg, h.clean, ?_, h.req⟩
  intro i x y hx hy
  replace hx : look (s.map.filter fun p => decide (p.1 ≠ id)) i = some x := hx
  replace hy : set s.heap a none x = some y := hy
  rw [look_filter] at hx
  split at hx
  · cases hx
  · by_cases e : x = a
    · subst e; rw [set_same] at hy; cases hy
    · rw [set_other _ _ e] at hy
      exact h.ty i x y hx hy

theorem listLoop_tinv {τ : Id → Ty} (me : Nat) (excl : Bool) : ∀ (m : List (Id × Nat)) (s : St) (gs : List Guard), TInv τ s →
    (∀ p ∈ m, look s.map p.1 = some p.2) → TInv τ (St.listLoop me excl m s gs).1
  | [], _, _, h, _ => h
  | (id, a) :: rest, s, gs, h, hm => by
    unfold St.listLoop
    have hi := (grab_tinv h (hm _ (.head _)) me none excl id (fun t e => by cases e)).1
    have hmap := (grab_keeps s me a none excl id).1
    have hr : ∀ p ∈ rest, look (s.grab me a none excl id).1.map p.1 = some p.2 := fun p hp => by rw [hmap]; exact hm p (.tail _ hp)
    split
    · next s' g he => rw [he] at hi hr; exact listLoop_tinv me excl rest s' _ hi hr
    · next s' o _ he => rw [he] at hi hr; exact listLoop_tinv me excl rest s' _ hi hr

theorem insert_tinv {τ : Id → Ty} {s : St} (h : TInv τ s) (me : Nat) (r : Req) (hm : St.checksThread r.made = true → me = s.main)
    (hrt : r.ty = τ r.id) : TInv τ (s.insert me r true).1 ∧ (s.insert me r true).2 ≠ .panic := by
  unfold St.insert
  split
  · next a hl =>
    have hg := grab_tinv h hl me (some r.ty) r.excl (.of r.ty) (fun t e => by cases e; exact hrt)
    split
    · next he => rw [he] at hg; exact absurd rfl hg.2
    · exact hg
  · next hl =>
    simp only [if_true]
    have h1 := put_tinv h hl (b := Box.make r.made r.ty me) rfl rfl (make_home hm) hrt
    have h2 : TInv τ { s.put r.id (Box.make r.made r.ty me) with created := s.created ++ [r.id] } :=
      ⟨create_inv h.inv hl hm, h1.clean, h1.ty, h1.req⟩
    refine grab_tinv h2 (id := r.id) ?_ me (some r.ty) r.excl (.of r.ty) (fun t e => by cases e; exact hrt)
    show look (s.map ++ [(r.id, s.next)]) r.id = _
    rw [look_append hl]
    simp [St.put]

theorem step_tinv {τ : Id → Ty} {s s' : St} {me : Nat} {ev : Ev} {o : Out} (h : TInv τ s) (hp : Polite s ev) (ht : Typed τ ev)
    (hs : s.step me ev = some (s', o)) : TInv τ s' ∧ o ≠ .panic := by
  cases ev with
  | drop i =>
    have hi := step_inv h.inv hp hs
    simp only [St.step] at hs
    split at hs
    · next g hg =>
      cases hs
      refine ⟨⟨hi, h.clean, ?_, h.req⟩, fun e => by cases e⟩
      intro i' x y hx hy
      obtain ⟨b, hb⟩ := h.inv.guards g (List.mem_of_getElem? hg)
      replace hy : (match s.heap g.box with | none => s.heap | some b => set s.heap g.box _) x = some y := hy
      rw [hb] at hy
      by_cases e : x = g.box
      · subst e
        dsimp only at hy
        rw [set_same] at hy
        cases hy
        have := h.ty i' _ b hx hb
        split <;> exact this
      · dsimp only at hy
        rw [set_other _ _ e] at hy
        exact h.ty i' x y hx hy
    · cases hs
  | insert i ok =>
    have hok : ok = true := ht
    subst hok
    simp only [St.step] at hs
    split at hs
    · cases hs
    · next thr r hw =>
      split at hs
      · next he =>
        subst he
        have h' : TInv τ { s with waiting := s.waiting.eraseIdx i } :=
          ⟨⟨h.inv.keys, h.inv.vals, h.inv.live, h.inv.only, h.inv.fresh, h.inv.box, h.inv.guards,
            fun p hp => h.inv.waiting p (List.mem_of_mem_eraseIdx hp), h.inv.once⟩, h.clean, h.ty,
            fun p hp => h.req p (List.mem_of_mem_eraseIdx hp)⟩
        have hrt : r.ty = τ r.id := h.req _ (List.mem_of_getElem? hw)
        split at hs
        · next hc => exact absurd (h.clean.symm.trans hc) (by simp)
        · have := insert_tinv h' thr r (h.inv.waiting _ (List.mem_of_getElem? hw)) hrt
          rw [Option.some.injEq] at hs
          rw [hs] at this
          exact this
      · cases hs
  | find id want excl =>
    simp only [St.step, h.clean, Bool.false_eq_true, if_false, Option.some.injEq] at hs
    unfold St.find at hs
    split at hs
    · next a hl =>
      have hg := grab_tinv h hl me want excl id (fun t e => by subst e; exact ht)
      rw [hs] at hg; exact hg
    · cases hs; exact ⟨h, fun e => by cases e⟩
  | orInsert r =>
    simp only [St.step, h.clean, Bool.false_eq_true, if_false, Option.some.injEq] at hs
    have hi := orInsert_inv h.inv me r
    unfold St.orInsert at hs hi
    split at hs
    · next a hl =>
      have hg := grab_tinv h hl me (some r.ty) r.excl (.of r.ty) (fun t e => by cases e; exact ht)
      rw [hs] at hg; exact hg
    · next hl =>
      rw [hl] at hi
      dsimp only at hi
      split at hs
      · cases hs; exact ⟨h, fun e => by cases e⟩
      · next hc =>
        rw [if_neg hc] at hi
        cases hs
        refine ⟨⟨hi, h.clean, h.ty, ?_⟩, fun e => by cases e⟩
        intro p hp
        rcases List.mem_append.mp hp with hp | hp
        · exact h.req p hp
        · simp only [List.mem_singleton] at hp
          subst hp
          exact ht
  | addUnique t quiet =>
    obtain ⟨h1, h2⟩ := ht
    subst h2
    simp only [St.step, h.clean, Bool.false_eq_true, if_false, Option.some.injEq] at hs
    unfold St.addUnique at hs
    dsimp only at hs
    split at hs
    · next hl =>
      cases hs
      exact ⟨put_tinv h hl rfl rfl (fun t h => by cases h) h1.symm, fun e => by cases e⟩
    · next a hl =>
      have ht := take_tinv h hl (hp a hl)
      have hl' : look (s.take (uniqueId t) a).map (uniqueId t) = none := by
        show look (s.map.filter _) _ = none
        rw [look_filter]; simp
      simp only [if_true] at hs
      cases hs
      exact ⟨put_tinv ht hl' rfl rfl (fun t h => by cases h) h1.symm, fun e => by cases e⟩
  | addUniqueLocal m t =>
    simp only [St.step, h.clean, Bool.false_and, Bool.false_eq_true, if_false, Option.some.injEq] at hs
    unfold St.addUniqueLocal at hs
    split at hs
    · cases hs; exact ⟨h, fun e => by cases e⟩
    · next hc =>
      split at hs
      · next hl =>
        cases hs
        refine ⟨put_tinv h hl rfl rfl (make_home ?_) ht.symm, fun e => by cases e⟩
        intro hm
        rw [hm] at hc
        simpa using hc
      · cases hs; exact ⟨h, fun e => by cases e⟩
  | removeUnique t =>
    have hi := removeUnique_inv h.inv me t
    simp only [St.step, h.clean, Bool.false_eq_true, if_false, Option.some.injEq] at hs
    unfold St.removeUnique at hs hi
    split at hs
    · cases hs; exact ⟨h, fun e => by cases e⟩
    · next a hl =>
      obtain ⟨b, hb⟩ := h.inv.boxAt hl
      rw [hl] at hi
      dsimp only at hi
      rw [hb] at hs hi
      dsimp only at hs hi
      split at hs
      · cases hs; exact ⟨h, fun e => by cases e⟩
      · next hm =>
        rw [hm] at hi
        cases hs
        refine ⟨⟨hi, h.clean, ?_, h.req⟩, fun e => by cases e⟩
        intro i x y hx hy
        replace hx : look (s.map.filter fun p => decide (p.1 ≠ uniqueId t)) i = some x := hx
        replace hy : set s.heap a none x = some y := hy
        rw [look_filter] at hx
        split at hx
        · cases hx
        · by_cases e : x = a
          · subst e; rw [set_same] at hy; cases hy
          · rw [set_other _ _ e] at hy
            exact h.ty i x y hx hy
  | list excl =>
    simp only [St.step, h.clean, Bool.false_eq_true, if_false, Option.some.injEq] at hs
    cases hs
    exact ⟨listLoop_tinv me excl s.map s [] h (fun p hp => look_of_mem h.inv.keys hp), fun e => by cases e⟩

theorem typed_tinv {τ : Id → Ty} {std : Bool} {main : Nat} {h : List (Nat × Ev)} {s : St}
    (hτ : τ (.of ⟨.new, .entities⟩) = ⟨.new, .entities⟩) (hr : TypedReach τ std main h s) : TInv τ s := by
  induction hr with
  | init =>
    refine ⟨init_inv _ _, rfl, ?_, fun p h => by cases h⟩
    intro id a b hl hb
    replace hl : (if Id.of ⟨.new, .entities⟩ = id then some 0 else none) = some a := hl
    split at hl
    · next e =>
      cases hl
      rw [init_heap, set_same] at hb
      cases hb
      rw [← e, hτ]
      rfl
    · cases hl
  | step _ hp ht hs ih => exact (step_tinv ih hp ht hs).1

end Verif.StorageMap
