import Verif.Lemmas.Registry
import Verif.Spec.Parallel

/-!
# Interleavings of one batch
-/
namespace Verif.Sched

variable {V ε : Type}

abbrev St (V : Type) := Nat → V

theorem Agree.refl (bs : List TypeInfo) (w : St V) : Agree bs w w := fun _ _ => rfl
theorem Agree.symm {bs : List TypeInfo} {w w' : St V} (h : Agree bs w w') : Agree bs w' w := fun s hs => (h s hs).symm
theorem Agree.trans {bs : List TypeInfo} {w w' w'' : St V} (h : Agree bs w w') (h' : Agree bs w' w'') : Agree bs w w'' :=
  fun s hs => (h s hs).trans (h' s hs)

theorem Writes.reads {bs : List TypeInfo} {s : Nat} (h : Writes bs s) : Reads bs s := by
  obtain ⟨b, hb, _, h⟩ := h; exact ⟨b, hb, h⟩

/-- Systems that do not conflict: what one writes the other does not read. -/
theorem not_conflicts {x y : WSys (St V) ε} (h : ¬ Conflicts x y) {s : Nat} (hw : Writes x.borrows s) :
    ¬ Reads y.borrows s := by
  rintro ⟨b, hb, hbs⟩
  obtain ⟨a, ha, hex, has⟩ := hw
  apply h
  refine ⟨a, ha, b, hb, ?_⟩
  rcases has with has | has
  · rcases hbs with hbs | hbs
    · exact .share (has.trans hbs.symm) (.inl hex)
    · exact .allRight hbs
  · exact .allLeft has

/-- A function on worlds within some views. -/
structure Local (bs : List TypeInfo) {α : Type} (f : St V → St V × α) : Prop where
  frame : ∀ w s, ¬ Writes bs s → (f w).1 s = w s
  out : ∀ w w', Agree bs w w' → (f w).2 = (f w').2
  agree : ∀ w w', Agree bs w w' → Agree bs (f w).1 (f w').1

theorem Prog.Within.local {bs : List TypeInfo} {p : Prog (St V) ε} (h : p.Within bs) : Local bs p.run := by
  induction h with
  | done r => exact ⟨fun _ _ _ => rfl, fun _ _ _ => rfl, fun _ _ h => h⟩
  | @act u k h1 h2 h3 _ ih =>
    refine ⟨?_, ?_, ?_⟩
    · intro w s hs
      show ((k w).run (u w)).1 s = w s
      rw [(ih w).frame _ _ hs, h1 _ _ hs]
    · intro w w' ha
      show ((k w).run (u w)).2 = ((k w').run (u w')).2
      rw [h3 _ _ ha]
      exact (ih w').out _ _ (h2 _ _ ha)
    · intro w w' ha
      show Agree bs ((k w).run (u w)).1 ((k w').run (u w')).1
      rw [h3 _ _ ha]
      exact (ih w').agree _ _ (h2 _ _ ha)

/-! ## Any interleaving -/

def Status.active : Status (St V) ε → Prop
  | .todo _ => False
  | .skipped => False
  | _ => True

/-- The state of one task, compared with running alone from the world `w0`. -/
def TaskInv (w0 w : St V) (B : List TypeInfo) (P : Prog (St V) ε) : Status (St V) ε → Prop
  | .todo p => p = P
  | .going p => ∃ v, Agree B w v ∧ p.run v = P.run w0 ∧ p.Within B
  | .ended r => Agree B w (P.run w0).1 ∧ (P.run w0).2 = r
  | .skipped => True

structure PoolInv (w0 : St V) (L : List (WSys (St V) ε)) (pr : WSys (St V) ε → Prog (St V) ε) (w : St V)
    (ts : List (Task (St V) ε)) : Prop where
  len : ts.length = L.length
  task : ∀ (i : Nat) t s, ts[i]? = some t → L[i]? = some s → TaskInv w0 w s.borrows (pr s) t.status
  frame : ∀ x, (∀ (i : Nat) t s, ts[i]? = some t → L[i]? = some s → t.status.active → ¬ Writes s.borrows x) → w x = w0 x
  skip : ∀ t ∈ ts, t.status = .skipped → ∃ t' ∈ ts, ∃ e, t'.status = .ended (.error e)

variable {w0 : St V} {L : List (WSys (St V) ε)} {pr : WSys (St V) ε → Prog (St V) ε}

theorem set_get {α : Type} {l : List α} {i j : Nat} {x y : α} (h : (l.set i x)[j]? = some y) :
    (j = i ∧ y = x ∧ i < l.length) ∨ (j ≠ i ∧ l[j]? = some y) := by
  rw [List.getElem?_set] at h
  by_cases hij : i = j
  · rw [if_pos hij] at h
    by_cases hl : i < l.length
    · rw [if_pos hl] at h
      cases h
      exact .inl ⟨hij.symm, rfl, hl⟩
    · rw [if_neg hl] at h; cases h
  · rw [if_neg hij] at h
    exact .inr ⟨fun h => hij h.symm, h⟩

/-- Replacing the status of one task. -/
theorem PoolInv.update (hc : L.Pairwise fun x y => ¬ Conflicts x y) {w w' : St V} {ts : List (Task (St V) ε)}
    (h : PoolInv w0 L pr w ts) {i : Nat} {t : Task (St V) ε} {s : WSys (St V) ε} (ht : ts[i]? = some t) (hs : L[i]? = some s)
    {st : Status (St V) ε} (hst : TaskInv w0 w' s.borrows (pr s) st)
    (hw : ∀ x, ¬ Writes s.borrows x → w' x = w x)
    (hact : w' ≠ w → st.active) (hact' : t.status.active → st.active)
    (hskip : st = .skipped → ∃ t' ∈ ts, ∃ e, t'.status = .ended (.error e))
    (hend : ∀ e, t.status ≠ .ended (.error e)) :
    PoolInv w0 L pr w' (ts.set i { t with status := st }) := by
  have hpair : ∀ {a b : Nat} {x y : WSys (St V) ε}, a ≠ b → L[a]? = some x → L[b]? = some y → ¬ Conflicts x y := by
    intro a b x y hab ha hb
    obtain ⟨la, ea⟩ := List.getElem?_eq_some_iff.mp ha
    obtain ⟨lb, eb⟩ := List.getElem?_eq_some_iff.mp hb
    have hp := List.pairwise_iff_getElem.mp hc
    rcases Nat.lt_or_gt_of_ne hab with hlt | hlt
    · have := hp a b la lb hlt
      rw [ea, eb] at this
      exact this
    · have := hp b a lb la hlt
      rw [ea, eb] at this
      exact fun h => this h.symm
  have hil : i < ts.length := (List.getElem?_eq_some_iff.mp ht).1
  refine ⟨by rw [List.length_set]; exact h.len, ?_, ?_, ?_⟩
  · intro j t' s' ht' hs'
    rcases set_get ht' with ⟨rfl, rfl, _⟩ | ⟨hj, ht'⟩
    · rw [hs] at hs'; cases hs'
      exact hst
    · have hag : Agree s'.borrows w' w := by
        intro x hx
        apply hw
        intro hwx
        exact not_conflicts (hpair (Ne.symm hj) hs hs') hwx hx
      have := h.task j t' s' ht' hs'
      revert this
      unfold TaskInv
      cases t'.status with
      | todo p => exact fun h => h
      | going p => rintro ⟨v, h1, h2⟩; exact ⟨v, hag.trans h1, h2⟩
      | ended r => rintro ⟨h1, h2⟩; exact ⟨hag.trans h1, h2⟩
      | skipped => exact fun h => h
  · intro x hx
    have hi := hx i { t with status := st } s (by rw [List.getElem?_set_self hil]) hs
    have hwx : w' x = w x := by
      by_cases he : w' = w
      · rw [he]
      · exact hw x (hi (hact he))
    rw [hwx]
    apply h.frame
    intro j t' s' ht' hs' ha
    by_cases hj : j = i
    · subst hj
      rw [ht] at ht'; cases ht'
      rw [hs] at hs'; cases hs'
      exact hi (hact' ha)
    · exact hx j t' s' (by rw [List.getElem?_set_ne (Ne.symm hj)]; exact ht') hs' ha
  · intro t' ht' hsk
    have hlift : ∀ t'' ∈ ts, (∃ e, t''.status = .ended (.error e)) →
        ∃ t' ∈ ts.set i { t with status := st }, ∃ e, t'.status = .ended (.error e) := by
      rintro t'' hm ⟨e, he⟩
      obtain ⟨j, hj⟩ := List.mem_iff_getElem?.mp hm
      have hji : i ≠ j := by
        rintro rfl
        rw [ht] at hj; cases hj
        exact hend e he
      exact ⟨t'', List.mem_of_getElem? (i := j) (by rw [List.getElem?_set_ne hji]; exact hj), e, he⟩
    obtain ⟨j, hj⟩ := List.mem_iff_getElem?.mp ht'
    rcases set_get hj with ⟨rfl, rfl, _⟩ | ⟨_, hj⟩
    · obtain ⟨t'', h1, h2⟩ := hskip hsk
      exact hlift t'' h1 h2
    · obtain ⟨t'', h1, h2⟩ := h.skip t' (List.mem_of_getElem? hj) hsk
      exact hlift t'' h1 h2

theorem PoolInv.step (hc : L.Pairwise fun x y => ¬ Conflicts x y) (hp : ∀ s ∈ L, (pr s).Within s.borrows) {w w' : St V}
    {ts ts' : List (Task (St V) ε)} (h : PoolInv w0 L pr w ts) (hs : Step w ts w' ts') : PoolInv w0 L pr w' ts' := by
  have sys : ∀ {i : Nat} {t}, ts[i]? = some t → ∃ s, L[i]? = some s := by
    intro i t ht
    have := (List.getElem?_eq_some_iff.mp ht).1
    rw [h.len] at this
    exact ⟨_, List.getElem?_eq_getElem this⟩
  have hpair : ∀ {a b : Nat} {x y : WSys (St V) ε}, a ≠ b → L[a]? = some x → L[b]? = some y → ¬ Conflicts x y := by
    intro a b x y hab ha hb
    obtain ⟨la, ea⟩ := List.getElem?_eq_some_iff.mp ha
    obtain ⟨lb, eb⟩ := List.getElem?_eq_some_iff.mp hb
    have hp := List.pairwise_iff_getElem.mp hc
    rcases Nat.lt_or_gt_of_ne hab with hlt | hlt
    · have := hp a b la lb hlt
      rw [ea, eb] at this
      exact this
    · have := hp b a lb la hlt
      rw [ea, eb] at this
      exact fun h => this h.symm
  -- a task that has not started sees the initial world
  have hidle : ∀ {i : Nat} {t s}, ts[i]? = some t → L[i]? = some s → ¬ t.status.active → Agree s.borrows w w0 := by
    intro i t s ht hs ha x hx
    apply h.frame
    intro j t' s' ht' hs' ha' hwx
    by_cases hj : j = i
    · subst hj
      rw [ht] at ht'; cases ht'
      exact ha ha'
    · exact not_conflicts (hpair hj hs' hs) hwx hx
  cases hs with
  | @start t i p ht hst =>
    obtain ⟨s, hs⟩ := sys ht
    have hti := h.task i t s ht hs
    rw [hst] at hti
    have hpp : p = pr s := hti
    refine h.update hc ht hs ?_ (fun _ _ => rfl) (fun he => absurd rfl he) (fun _ => trivial) (fun he => by cases he) ?_
    · exact ⟨w0, hidle ht hs (by rw [hst]; exact fun h => h), by rw [hpp], by rw [hpp]; exact hp s (List.mem_of_getElem? hs)⟩
    · intro e he; rw [hst] at he; cases he
  | @act t i u k ht hst =>
    obtain ⟨s, hs⟩ := sys ht
    have hti := h.task i t s ht hs
    rw [hst] at hti
    obtain ⟨v, h1, h2, h3⟩ := hti
    cases h3 with
    | act g1 g2 g3 g4 =>
      refine h.update hc ht hs ?_ (fun x hx => g1 w x hx) (fun _ => trivial) (fun _ => trivial) (fun he => by cases he) ?_
      · refine ⟨u v, g2 _ _ h1, ?_, g4 w⟩
        rw [g3 _ _ h1]
        exact h2
      · intro e he; rw [hst] at he; cases he
  | @finish t i r ht hst =>
    obtain ⟨s, hs⟩ := sys ht
    have hti := h.task i t s ht hs
    rw [hst] at hti
    obtain ⟨v, h1, h2, h3⟩ := hti
    refine h.update hc ht hs ?_ (fun _ _ => rfl) (fun he => absurd rfl he) (fun _ => trivial) (fun he => by cases he) ?_
    · have h2' : (v, r) = (pr s).run w0 := h2
      refine ⟨?_, ?_⟩
      · rw [← h2']; exact h1
      · rw [← h2']
    · intro e he; rw [hst] at he; cases he
  | @skip t t' i p e ht hst hm ht' hm' he =>
    obtain ⟨s, hs⟩ := sys ht
    refine h.update hc ht hs trivial (fun _ _ => rfl) (fun he => absurd rfl he) ?_ (fun _ => ⟨t', ht', e, he⟩) ?_
    · intro ha; rw [hst] at ha; exact ha
    · intro e he; rw [hst] at he; cases he

theorem PoolInv.steps (hc : L.Pairwise fun x y => ¬ Conflicts x y) (hp : ∀ s ∈ L, (pr s).Within s.borrows) {w w' : St V}
    {ts ts' : List (Task (St V) ε)} (hs : Steps w ts w' ts') (h : PoolInv w0 L pr w ts) : PoolInv w0 L pr w' ts' := by
  induction hs with
  | refl => exact h
  | tail _ hs ih => exact ih.step hc hp hs

theorem PoolInv.init {ts : List (Task (St V) ε)} (hts : ts.map (·.status) = L.map fun s => .todo (pr s)) :
    PoolInv w0 L pr w0 ts := by
  have hlen : ts.length = L.length := by simpa using congrArg List.length hts
  have hget : ∀ (i : Nat) t s, ts[i]? = some t → L[i]? = some s → t.status = .todo (pr s) := by
    intro i t s ht hs
    have := congrArg (fun l => l[i]?) hts
    simp only [List.getElem?_map, ht, hs, Option.map_some] at this
    exact Option.some.inj this
  refine ⟨hlen, ?_, fun _ _ => rfl, ?_⟩
  · intro i t s ht hs
    rw [hget i t s ht hs]
    rfl
  · intro t ht hsk
    obtain ⟨i, hi⟩ := List.mem_iff_getElem?.mp ht
    have hl := (List.getElem?_eq_some_iff.mp hi).1
    have := hget i t _ hi (List.getElem?_eq_getElem (by omega))
    rw [this] at hsk; cases hsk

/-- What is known at the end of a batch. -/
theorem PoolInv.final {w : St V} {ts : List (Task (St V) ε)} (h : PoolInv w0 L pr w ts) (ho : ∀ t ∈ ts, t.over)
    (hne : ∀ t ∈ ts, ∀ e, t.status ≠ .ended (.error e)) :
    (∀ s ∈ L, Agree s.borrows w ((pr s).run w0).1 ∧ ((pr s).run w0).2 = .ok ())
    ∧ ∀ x, (∀ s ∈ L, ¬ Writes s.borrows x) → w x = w0 x := by
  refine ⟨?_, ?_⟩
  · intro s hs
    obtain ⟨i, hi⟩ := List.mem_iff_getElem?.mp hs
    have hl := (List.getElem?_eq_some_iff.mp hi).1
    have ht : ts[i]? = some (ts[i]'(by rw [h.len]; exact hl)) := List.getElem?_eq_getElem _
    have hinv := h.task i _ s ht hi
    have hm := List.mem_of_getElem? ht
    rcases ho _ hm with hsk | ⟨r, hr⟩
    · obtain ⟨t', h1, e, h2⟩ := h.skip _ hm hsk
      exact absurd h2 (hne t' h1 e)
    · rw [hr] at hinv
      refine ⟨hinv.1, ?_⟩
      rw [hinv.2]
      cases r with
      | ok u => rfl
      | error e => exact absurd hr (hne _ hm e)
  · intro x hx
    apply h.frame
    intro i t s _ hs _
    exact hx s (List.mem_of_getElem? hs)

theorem PoolInv.failed {w : St V} {ts : List (Task (St V) ε)} (h : PoolInv w0 L pr w ts) {i : Nat} {t : Task (St V) ε}
    (ht : ts[i]? = some t) {e : ε} (he : t.status = .ended (.error e)) :
    ∃ s, L[i]? = some s ∧ ((pr s).run w0).2 = .error e := by
  have hl := (List.getElem?_eq_some_iff.mp ht).1
  rw [h.len] at hl
  have hs : L[i]? = some L[i] := List.getElem?_eq_getElem hl
  have := h.task i t _ ht hs
  rw [he] at this
  exact ⟨_, hs, this.2⟩

/-! ## One after the other -/

theorem CondWithin.local {bs : List TypeInfo} {c : Option (Cond (St V) ε)} (hc : CondWithin bs c) : Local bs (evalC c) :=
  ⟨hc.frame, hc.out, hc.agree⟩

/-- A job of the sequential run, in two steps. -/
theorem runJob_split (n : Label) (f : SysFn (St V) ε) (c : Option (Cond (St V) ε)) (w : St V) :
    runJob ((n, f), c) w = match (evalC c w).2 with
      | .error e => ((evalC c w).1, .error (.run n e))
      | .ok false => ((evalC c w).1, .ok ())
      | .ok true => ((f (evalC c w).1).1, match (f (evalC c w).1).2 with | .ok _ => .ok () | .error e => .error (.run n e)) := by
  unfold runJob
  dsimp only
  rcases evalC c w with ⟨w1, e | (_ | _)⟩
  · rfl
  · rfl
  · dsimp only
    rcases f w1 with ⟨w2, e | u⟩ <;> rfl

/-- A job of the sequential run, within its views. -/
theorem runJob_local {bs : List TypeInfo} {n : Label} {f : SysFn (St V) ε} {c : Option (Cond (St V) ε)} (hf : Local bs f)
    (hc : CondWithin bs c) : Local bs (runJob ((n, f), c)) := by
  refine ⟨?_, ?_, ?_⟩
  · intro w s hs
    rw [runJob_split]
    rcases (evalC c w).2 with e | (_ | _)
    · exact hc.frame w s hs
    · exact hc.frame w s hs
    · exact (hf.frame _ s hs).trans (hc.frame w s hs)
  · intro w w' ha
    rw [runJob_split, runJob_split, hc.out w w' ha]
    rcases (evalC c w').2 with e | (_ | _)
    · rfl
    · rfl
    · dsimp only
      rw [hf.out _ _ (hc.agree w w' ha)]
  · intro w w' ha
    rw [runJob_split, runJob_split, hc.out w w' ha]
    rcases (evalC c w').2 with e | (_ | _)
    · exact hc.agree w w' ha
    · exact hc.agree w w' ha
    · exact hf.agree _ _ (hc.agree w w' ha)

/-- The jobs of a list of systems, one after the other. -/
theorem runJobs_local (J : WSys (St V) ε → NamedJob (St V) ε) : ∀ (L : List (WSys (St V) ε)) (w0 : St V),
    (∀ s ∈ L, Local s.borrows (runJob (J s))) → L.Pairwise (fun x y => ¬ Conflicts x y) →
    (∀ w', runJobs (L.map J) w0 = (w', .ok ()) →
      (∀ s ∈ L, (runJob (J s) w0).2 = .ok () ∧ Agree s.borrows w' (runJob (J s) w0).1)
      ∧ ∀ x, (∀ s ∈ L, ¬ Writes s.borrows x) → w' x = w0 x)
    ∧ (∀ w' e, runJobs (L.map J) w0 = (w', .error e) → ∃ s ∈ L, (runJob (J s) w0).2 = .error e) := by
  intro L
  induction L with
  | nil =>
    intro w0 _ _
    refine ⟨?_, ?_⟩
    · intro w' h; cases h
      exact ⟨(fun s hs => by cases hs), fun _ _ => rfl⟩
    · intro w' e h; cases h
  | cons s rest ih =>
    intro w0 hl hp
    have hp' := List.pairwise_cons.mp hp
    have hls := hl s (by simp)
    have step : runJobs ((s :: rest).map J) w0 = match runJob (J s) w0 with
        | (w, .ok _) => runJobs (rest.map J) w | (w, .error e) => (w, .error e) := by
      rw [List.map_cons]
      conv => lhs; unfold runJobs
      rcases runJob (J s) w0 with ⟨w1, e | u⟩ <;> rfl
    rcases h1 : runJob (J s) w0 with ⟨w1, e | u⟩
    · rw [step, h1]
      refine ⟨(fun w' h => by cases h), ?_⟩
      intro w' e' h
      cases h
      exact ⟨s, by simp, by rw [h1]⟩
    · rw [step, h1]
      dsimp only
      have hag : ∀ t ∈ rest, Agree t.borrows w1 w0 := by
        intro t ht x hx
        have := hls.frame w0 x (fun hw => not_conflicts (hp'.1 t ht) hw hx)
        rw [h1] at this
        exact this
      obtain ⟨ih1, ih2⟩ := ih w1 (fun t ht => hl t (List.mem_cons_of_mem _ ht)) hp'.2
      refine ⟨?_, ?_⟩
      · intro w' h
        obtain ⟨k1, k2⟩ := ih1 w' h
        refine ⟨?_, ?_⟩
        · intro t ht
          rcases List.mem_cons.mp ht with rfl | ht
          · rw [h1]
            refine ⟨rfl, ?_⟩
            intro x hx
            apply k2
            intro t' ht' hw
            exact not_conflicts (fun hc => hp'.1 t' ht' hc.symm) hw hx
          · have hlt := hl t (List.mem_cons_of_mem _ ht)
            obtain ⟨j1, j2⟩ := k1 t ht
            exact ⟨by rw [← hlt.out _ _ (hag t ht)]; exact j1, j2.trans (hlt.agree _ _ (hag t ht))⟩
        · intro x hx
          rw [k2 x (fun t ht => hx t (List.mem_cons_of_mem _ ht))]
          have := hls.frame w0 x (hx s (by simp))
          rw [h1] at this
          exact this
      · intro w' e h
        obtain ⟨t, ht, he⟩ := ih2 w' e h
        refine ⟨t, List.mem_cons_of_mem _ ht, ?_⟩
        rw [← (hl t (List.mem_cons_of_mem _ ht)).out _ _ (hag t ht)]
        exact he

/-- Two worlds with the same description are the same. -/
theorem world_unique {L : List (WSys (St V) ε)} {g : WSys (St V) ε → St V} {w0 w w' : St V}
    (h1 : ∀ s ∈ L, Agree s.borrows w (g s)) (h2 : ∀ x, (∀ s ∈ L, ¬ Writes s.borrows x) → w x = w0 x)
    (h1' : ∀ s ∈ L, Agree s.borrows w' (g s)) (h2' : ∀ x, (∀ s ∈ L, ¬ Writes s.borrows x) → w' x = w0 x) : w = w' := by
  funext x
  by_cases h : ∃ s ∈ L, Writes s.borrows x
  · obtain ⟨s, hs, hw⟩ := h
    rw [h1 s hs x hw.reads, h1' s hs x hw.reads]
  · have : ∀ s ∈ L, ¬ Writes s.borrows x := fun s hs hw => h ⟨s, hs, hw⟩
    rw [h2 x this, h2' x this]

end Verif.Sched
