import Verif.Lemmas.Order

/-! # `order_systems`: the order it produces -/
namespace Verif.Sched

variable {W ε : Type}

/-- What `order_systems` relies on: the unique label of each system is its position, and constraints
are positions. -/
def Num (ss : List (Sys W ε)) : Prop :=
  ∀ (i : Nat) s, ss[i]? = some s →
    s.uid = i ∧ (∀ n, Label.unique n ∈ s.tags ↔ n = i)
      ∧ (∀ j ∈ s.hardAfter, j < ss.length) ∧ (∀ j ∈ s.softAfter, j < ss.length)

def Order.placed (o : Order W ε) : List Nat := o.trace.map (·.2.uid)

/-- `x` is system number `x.uid` of the list, up to its remaining constraints. -/
def Is (ss : List (Sys W ε)) (x s : Sys W ε) : Prop :=
  ss[x.uid]? = some s ∧ x = { s with softAfter := x.softAfter, hardAfter := x.hardAfter }

/-- The trace is an order that respects the constraints. -/
def TraceOk (ss : List (Sys W ε)) (t : List (Nat × Sys W ε)) : Prop :=
  ∀ pre p post, t = pre ++ p :: post →
    ∃ s, Is ss p.2 s ∧ (∀ j ∈ s.softAfter, ∃ q ∈ pre, q.2.uid = j)
      ∧ (∀ j ∈ s.hardAfter, ∃ q ∈ pre, q.2.uid = j ∧ q.1 < p.1)

structure SInv (ss : List (Sys W ε)) (o : Order W ε) (rel : List Nat) : Prop where
  perm : (o.placed ++ (o.queue.map (·.uid) ++ o.rest.map (·.uid))).Perm (List.range ss.length)
  rest : ∀ x ∈ o.rest, ∃ s, Is ss x s ∧ (∀ j, j ∈ x.softAfter ↔ j ∈ s.softAfter ∧ j ∉ o.placed)
    ∧ (∀ j, j ∈ x.hardAfter ↔ j ∈ s.hardAfter ∧ j ∉ rel) ∧ x.free = false
  queue : ∀ x ∈ o.queue, ∃ s, Is ss x s ∧ (∀ j ∈ s.softAfter, j ∈ o.placed)
    ∧ (∀ j ∈ s.hardAfter, j ∈ rel)
  trace : TraceOk ss o.trace
  relOk : ∀ j ∈ rel, ∃ q ∈ o.trace, q.2.uid = j ∧ q.1 < o.info.length - 1
  del : ∀ n, n ∈ o.placed ↔ n ∈ rel ∨ Label.unique n ∈ o.toDelete

theorem free_iff (s : Sys W ε) : s.free = true ↔ s.hardAfter = [] ∧ s.softAfter = [] := by
  unfold Sys.free
  simp

theorem nil_of_no_mem {l : List Nat} (h : ∀ j, j ∉ l) : l = [] := by
  cases l with
  | nil => rfl
  | cons a t => exact absurd (List.mem_cons_self) (h a)

theorem openBatch_fields (o : Order W ε) (s : Sys W ε) :
    (o.openBatch s).rest = o.rest ∧ (o.openBatch s).queue = o.queue ∧
    (o.openBatch s).toDelete = o.toDelete ∧ (o.openBatch s).trace = o.trace ∧
    o.info.length ≤ (o.openBatch s).info.length := by
  unfold Order.openBatch
  split
  · split
    · refine ⟨rfl, rfl, rfl, rfl, ?_⟩
      simp [Order.newBatch]
    · exact ⟨rfl, rfl, rfl, rfl, Nat.le_refl _⟩
  · exact ⟨rfl, rfl, rfl, rfl, Nat.le_refl _⟩

def relaxed (s x : Sys W ε) : Sys W ε := { x with softAfter := retainIds x.softAfter s.tags }

theorem place_fields (o : Order W ε) (s : Sys W ε) :
    (o.place s).rest = (o.rest.map (relaxed s)).filter (fun x => !x.free) ∧
    (o.place s).queue = o.queue ++ (o.rest.map (relaxed s)).filter Sys.free ∧
    (o.place s).toDelete = o.toDelete ++ s.tags ∧
    (o.place s).trace = o.trace ++ [((o.openBatch s).info.length - 1, s)] ∧
    (o.place s).info.length = (o.openBatch s).info.length := by
  obtain ⟨h1, h2, h3, h4, _⟩ := openBatch_fields o s
  refine ⟨?_, ?_, ?_, ?_, ?_⟩
  · show List.filter _ (List.map _ (o.openBatch s).rest) = _
    rw [h1]; rfl
  · show (o.openBatch s).queue ++ List.filter _ (List.map _ (o.openBatch s).rest) = _
    rw [h1, h2]; rfl
  · show (o.openBatch s).toDelete ++ s.tags = _
    rw [h3]
  · show (o.openBatch s).trace ++ _ = _
    rw [h4]
  · show (setLast (o.openBatch s).info _).length = _
    exact length_setLast _ _

theorem filter_split_perm {α : Type} (l : List α) (p : α → Bool) :
    (l.filter p ++ l.filter fun x => !p x).Perm l := by
  induction l with
  | nil => exact .refl _
  | cons a t ih =>
    cases h : p a with
    | true =>
      simp only [List.filter_cons, h, if_true, Bool.not_true, Bool.false_eq_true, if_false, List.cons_append]
      exact .cons a ih
    | false =>
      simp only [List.filter_cons, h, if_true, Bool.not_false, Bool.false_eq_true, if_false]
      exact (List.perm_middle).trans (.cons a ih)

theorem Is.uid_tags {ss : List (Sys W ε)} (hn : Num ss) {x s : Sys W ε} (h : Is ss x s) (n : Nat) :
    Label.unique n ∈ x.tags ↔ n = x.uid := by
  have := (hn x.uid s h.1).2.1 n
  rw [h.2]
  exact this.trans (by rw [show s.uid = x.uid from (hn x.uid s h.1).1])

theorem SInv.place {ss : List (Sys W ε)} (hn : Num ss) {o : Order W ε} {rel : List Nat} {s : Sys W ε}
    {q : List (Sys W ε)} (h : SInv ss o rel) (hq : o.queue = s :: q) :
    SInv ss ({ o with queue := q }.place s) rel ∧
    ({ o with queue := q }.place s).queue.length + ({ o with queue := q }.place s).rest.length + 1
      = o.queue.length + o.rest.length := by
  obtain ⟨f1, f2, f3, f4, f5⟩ := place_fields { o with queue := q } s
  obtain ⟨_, _, _, _, f6⟩ := openBatch_fields { o with queue := q } s
  have g1 : ({ o with queue := q } : Order W ε).rest = o.rest := rfl
  have g2 : ({ o with queue := q } : Order W ε).queue = q := rfl
  have g3 : ({ o with queue := q } : Order W ε).toDelete = o.toDelete := rfl
  have g4 : ({ o with queue := q } : Order W ε).trace = o.trace := rfl
  have g5 : ({ o with queue := q } : Order W ε).info = o.info := rfl
  rw [g1] at f1
  rw [g1, g2] at f2
  rw [g3] at f3
  rw [g4] at f4
  rw [g5] at f6
  rw [← f5] at f4 f6
  generalize hO : ({ o with queue := q } : Order W ε).place s = O at f1 f2 f3 f4 f5 f6
  clear hO f5 g1 g2 g3 g4 g5
  obtain ⟨s0, hs0, hsoft, hhard⟩ := h.queue s (by rw [hq]; simp)
  have hplaced : O.placed = o.placed ++ [s.uid] := by
    unfold Order.placed
    rw [f4]; simp
  have huid : (o.rest.map (relaxed s)).map (·.uid) = o.rest.map (·.uid) := by
    rw [List.map_map]; rfl
  have hsplit := filter_split_perm (o.rest.map (relaxed s)) Sys.free
  have hsplit' := hsplit.map (·.uid)
  rw [List.map_append, huid] at hsplit'
  have hlen := hsplit.length_eq
  rw [List.length_append, List.length_map] at hlen
  have htag := hs0.uid_tags hn
  have hx : ∀ x ∈ o.rest, ∃ t, Is ss (relaxed s x) t
      ∧ (∀ j, j ∈ (relaxed s x).softAfter ↔ j ∈ t.softAfter ∧ j ∉ O.placed)
      ∧ (∀ j, j ∈ (relaxed s x).hardAfter ↔ j ∈ t.hardAfter ∧ j ∉ rel) := by
    intro x hx
    obtain ⟨t, ht, h1, h2, _⟩ := h.rest x hx
    refine ⟨t, ⟨ht.1, ?_⟩, ?_, h2⟩
    · unfold relaxed
      conv => lhs; rw [ht.2]
    · intro j
      show j ∈ retainIds x.softAfter s.tags ↔ _
      rw [mem_retainIds, h1 j, htag j, hplaced]
      simp only [List.mem_append, List.mem_singleton, not_or]
      exact and_assoc
  refine ⟨⟨?_, ?_, ?_, ?_, ?_, ?_⟩, ?_⟩
  · have hp := h.perm
    rw [hq] at hp
    rw [hplaced, f1, f2]
    refine List.Perm.trans ?_ hp
    simp only [List.map_append, List.map_cons, List.append_assoc]
    refine List.Perm.append_left _ ?_
    simp only [List.singleton_append]
    refine List.Perm.cons _ ?_
    exact List.Perm.append_left _ hsplit'
  · intro x hxr
    rw [f1] at hxr
    obtain ⟨hx1, hx2⟩ := List.mem_filter.mp hxr
    obtain ⟨y, hy, rfl⟩ := List.mem_map.mp hx1
    obtain ⟨t, h1, h2, h3⟩ := hx y hy
    exact ⟨t, h1, h2, h3, by simpa using hx2⟩
  · intro x hxq
    rw [f2] at hxq
    rcases List.mem_append.mp hxq with hxq | hxq
    · obtain ⟨t, h1, h2, h3⟩ := h.queue x (by rw [hq]; exact List.mem_cons_of_mem _ hxq)
      refine ⟨t, h1, (fun j hj => ?_), h3⟩
      rw [hplaced]
      exact List.mem_append_left _ (h2 j hj)
    · obtain ⟨hx1, hx2⟩ := List.mem_filter.mp hxq
      obtain ⟨y, hy, rfl⟩ := List.mem_map.mp hx1
      obtain ⟨t, h1, h2, h3⟩ := hx y hy
      obtain ⟨e1, e2⟩ := (free_iff _).mp hx2
      refine ⟨t, h1, ?_, ?_⟩
      · intro j hj
        apply Classical.byContradiction
        intro hc
        have := (h2 j).mpr ⟨hj, hc⟩
        rw [e2] at this; cases this
      · intro j hj
        apply Classical.byContradiction
        intro hc
        have := (h3 j).mpr ⟨hj, hc⟩
        rw [e1] at this; cases this
  · intro pre p post he
    rw [f4] at he
    rcases List.append_eq_append_iff.mp he.symm with ⟨a', ha, hb⟩ | ⟨c', hc, hd⟩
    · -- pre = trace prefix
      rcases List.cons_eq_append_iff.mp hb with ⟨rfl, hb⟩ | ⟨a'', rfl, hb⟩
      · simp only [List.append_nil] at ha
        subst ha
        have hp1 := (List.cons_eq_cons.mp hb).1
        subst hp1
        refine ⟨s0, hs0, ?_, ?_⟩
        · intro j hj
          obtain ⟨q', hq', e⟩ := List.mem_map.mp (hsoft j hj)
          exact ⟨q', hq', e⟩
        · intro j hj
          obtain ⟨q', hq', e, e'⟩ := h.relOk j (hhard j hj)
          exact ⟨q', hq', e, by show q'.1 < O.info.length - 1; omega⟩
      · exact h.trace pre p a'' ha
    · cases c' with
      | nil =>
        simp only [List.append_nil] at hc
        simp only [List.nil_append] at hd
        subst hc
        have hp1 := (List.cons_eq_cons.mp hd).1
        subst hp1
        refine ⟨s0, hs0, ?_, ?_⟩
        · intro j hj
          obtain ⟨q', hq', e⟩ := List.mem_map.mp (hsoft j hj)
          exact ⟨q', hq', e⟩
        · intro j hj
          obtain ⟨q', hq', e, e'⟩ := h.relOk j (hhard j hj)
          exact ⟨q', hq', e, by show q'.1 < O.info.length - 1; omega⟩
      | cons c cs =>
        have := congrArg List.length hd
        simp at this
  · intro j hj
    obtain ⟨q', hq', e, e'⟩ := h.relOk j hj
    exact ⟨q', by rw [f4]; exact List.mem_append_left _ hq', e, by omega⟩
  · intro n
    rw [hplaced, f3]
    simp only [List.mem_append, List.mem_singleton, h.del n, htag n]
    exact or_assoc
  · rw [f1, f2, List.length_append, hq, List.length_cons]
    omega

theorem drain_ok {ss : List (Sys W ε)} (hn : Num ss) {rel : List Nat} (fuel : Nat) :
    ∀ (o : Order W ε), SInv ss o rel → DInv o → o.queue.length + o.rest.length ≤ fuel →
    ∃ o', Order.drain fuel o = .ok o' ∧ SInv ss o' rel ∧ DInv o' ∧ o'.queue = []
      ∧ o'.rest.length ≤ o.rest.length := by
  induction fuel with
  | zero =>
    intro o hs hd hf
    have h1 : o.queue = [] := List.eq_nil_of_length_eq_zero (by omega)
    refine ⟨o, ?_, hs, hd, h1, Nat.le_refl _⟩
    unfold Order.drain
    rw [h1]; rfl
  | succ f ih =>
    intro o hs hd hf
    cases hq : o.queue with
    | nil =>
      refine ⟨o, ?_, hs, hd, hq, Nat.le_refl _⟩
      show (match o.queue with | [] => _ | s :: q => _) = _
      rw [hq]
    | cons s q =>
      have hp := hs.place hn hq
      have hd' : DInv ({ o with queue := q }.place s) := by
        apply DInv.place
        exact hd.congr rfl rfl rfl rfl rfl rfl rfl
      obtain ⟨o', h1, h2, h3, h4, h5⟩ := ih _ hp.1 hd' (by omega)
      refine ⟨o', ?_, h2, h3, h4, ?_⟩
      · show (match o.queue with | [] => _ | s :: q => _) = _
        rw [hq]
        exact h1
      · refine Nat.le_trans h5 ?_
        rw [(place_fields { o with queue := q } s).1]
        refine Nat.le_trans (List.length_filter_le _ _) ?_
        rw [List.length_map]
        exact Nat.le_refl _

def released (o : Order W ε) (x : Sys W ε) : Sys W ε :=
  { x with hardAfter := retainIds x.hardAfter o.toDelete }

theorem released_ok {ss : List (Sys W ε)} {o : Order W ε} {rel : List Nat}
    (h : SInv ss o rel) (x : Sys W ε) (hx : x ∈ o.rest) :
    ∃ t, Is ss (released o x) t
      ∧ (∀ j, j ∈ (released o x).softAfter ↔ j ∈ t.softAfter ∧ j ∉ o.placed)
      ∧ (∀ j, j ∈ (released o x).hardAfter ↔ j ∈ t.hardAfter ∧ j ∉ o.placed) := by
  obtain ⟨t, ht, h1, h2, _⟩ := h.rest x hx
  refine ⟨t, ⟨ht.1, ?_⟩, h1, ?_⟩
  · unfold released
    conv => lhs; rw [ht.2]
  · intro j
    show j ∈ retainIds x.hardAfter o.toDelete ↔ _
    rw [mem_retainIds, h2 j, h.del j, not_or]
    exact and_assoc

theorem release_perm {ss : List (Sys W ε)} {o : Order W ε} {rel : List Nat}
    (h : SInv ss o rel) (hq : o.queue = []) :
    (o.placed ++ (o.release.queue.map (·.uid) ++ o.release.rest.map (·.uid))).Perm
      (List.range ss.length) ∧ o.release.queue.length + o.release.rest.length = o.rest.length := by
  have e1 : o.release.queue = (o.rest.map (released o)).filter Sys.free := by
    show o.queue ++ _ = _
    rw [hq]; rfl
  have e2 : o.release.rest = (o.rest.map (released o)).filter (fun x => !x.free) := rfl
  have hsplit := filter_split_perm (o.rest.map (released o)) Sys.free
  have hsplit' := hsplit.map (·.uid)
  have huid : (o.rest.map (released o)).map (·.uid) = o.rest.map (·.uid) := by
    rw [List.map_map]; rfl
  rw [List.map_append, huid] at hsplit'
  constructor
  · rw [e1, e2]
    have hp := h.perm
    rw [hq] at hp
    exact (List.Perm.append_left _ hsplit').trans hp
  · have := hsplit.length_eq
    rw [List.length_append, List.length_map] at this
    rw [e1, e2]
    exact this

theorem SInv.next {ss : List (Sys W ε)} {o : Order W ε} {rel : List Nat} (h : SInv ss o rel)
    (hd : DInv o) (hq : o.queue = []) :
    SInv ss { o.release.newBatch with toDelete := [] } o.placed := by
  have e1 : o.release.queue = (o.rest.map (released o)).filter Sys.free := by
    show o.queue ++ _ = _
    rw [hq]; rfl
  refine ⟨(release_perm h hq).1, ?_, ?_, h.trace, ?_, ?_⟩
  · intro x hx
    obtain ⟨hx1, hx2⟩ := List.mem_filter.mp hx
    obtain ⟨y, hy, rfl⟩ := List.mem_map.mp hx1
    obtain ⟨t, h1, h2, h3⟩ := released_ok h y hy
    exact ⟨t, h1, h2, h3, by simpa using hx2⟩
  · intro x hx
    have hx : x ∈ (o.rest.map (released o)).filter Sys.free := e1 ▸ hx
    obtain ⟨hx1, hx2⟩ := List.mem_filter.mp hx
    obtain ⟨y, hy, rfl⟩ := List.mem_map.mp hx1
    obtain ⟨t, h1, h2, h3⟩ := released_ok h y hy
    obtain ⟨e1, e2⟩ := (free_iff _).mp hx2
    refine ⟨t, h1, ?_, ?_⟩
    · intro j hj
      apply Classical.byContradiction
      intro hc
      have := (h2 j).mpr ⟨hj, hc⟩
      rw [e2] at this; cases this
    · intro j hj
      apply Classical.byContradiction
      intro hc
      have := (h3 j).mpr ⟨hj, hc⟩
      rw [e1] at this; cases this
  · intro j hj
    obtain ⟨q, hq, rfl⟩ := List.mem_map.mp hj
    refine ⟨q, hq, rfl, ?_⟩
    have := hd.bound q hq
    show q.1 < (o.info ++ [(none, [])]).length - 1
    simpa using this
  · intro n
    show n ∈ o.placed ↔ n ∈ o.placed ∨ Label.unique n ∈ []
    simp

/-- What holds when the outer loop stops. -/
structure Final (ss : List (Sys W ε)) (o : Order W ε) : Prop where
  perm : (o.placed ++ o.rest.map (·.uid)).Perm (List.range ss.length)
  trace : TraceOk ss o.trace
  stuck : ∀ x ∈ o.rest, ∃ s, Is ss x s ∧ ∃ j, (j ∈ s.softAfter ∨ j ∈ s.hardAfter) ∧ j ∉ o.placed

theorem loop_ok {ss : List (Sys W ε)} (hn : Num ss) (fuel : Nat) :
    ∀ (o : Order W ε) (rel : List Nat), SInv ss o rel → DInv o → o.rest.length < fuel →
    ∃ o', Order.loop fuel o = .ok o' ∧ DInv o' ∧ Final ss o' := by
  induction fuel with
  | zero => intro o rel _ _ h; omega
  | succ f ih =>
    intro o rel hs hd hf
    obtain ⟨o1, h1, h2, h3, h4, h5⟩ := drain_ok hn _ o hs hd (Nat.le_refl _)
    obtain ⟨hp, hl⟩ := release_perm h2 h4
    have step : Order.loop (f + 1) o = (if o1.release.queue.isEmpty then .ok o1.release
        else Order.loop f { o1.release.newBatch with toDelete := [] }) := by
      show (Order.drain (o.queue.length + o.rest.length) o).bind _ = _
      rw [h1]; rfl
    rw [step]
    cases hq : o1.release.queue with
    | nil =>
      refine ⟨o1.release, by simp, h3.congr rfl rfl rfl rfl rfl rfl rfl, ?_, h2.trace, ?_⟩
      · rw [hq] at hp
        exact hp
      · intro x hx
        obtain ⟨hx1, hx2⟩ := List.mem_filter.mp hx
        obtain ⟨y, hy, rfl⟩ := List.mem_map.mp hx1
        obtain ⟨t, g1, g2, g3⟩ := released_ok h2 y hy
        refine ⟨t, g1, ?_⟩
        have hne : ¬ ((released o1 y).hardAfter = [] ∧ (released o1 y).softAfter = []) := by
          intro hc
          have := (free_iff _).mpr hc
          have hx2' : (!(released o1 y).free) = true := hx2
          rw [this] at hx2'
          cases hx2'
        apply Classical.byContradiction
        intro hc
        apply hne
        constructor
        · apply nil_of_no_mem
          intro j hj
          exact hc ⟨j, .inr ((g3 j).mp hj).1, ((g3 j).mp hj).2⟩
        · apply nil_of_no_mem
          intro j hj
          exact hc ⟨j, .inl ((g2 j).mp hj).1, ((g2 j).mp hj).2⟩
    | cons x q =>
      have := ih { o1.release.newBatch with toDelete := [] } o1.placed (h2.next h3 h4)
        ((h3.congr (o' := o1.release) rfl rfl rfl rfl rfl rfl rfl).newBatch.congr rfl rfl rfl rfl rfl rfl rfl) ?_
      · simpa using this
      · show o1.release.rest.length < f
        rw [hq, List.length_cons] at hl
        omega

theorem SInv.init {ss : List (Sys W ε)} (hn : Num ss) : SInv ss (Order.init ss) [] := by
  have hself : ∀ x ∈ ss, Is ss x x := by
    intro x hx
    obtain ⟨i, hi⟩ := List.mem_iff_getElem?.mp hx
    have := (hn i x hi).1
    exact ⟨by rw [this]; exact hi, rfl⟩
  have huids : ss.map (·.uid) = List.range ss.length := by
    apply List.ext_getElem?
    intro i
    rw [List.getElem?_map]
    by_cases hi : i < ss.length
    · rw [List.getElem?_eq_getElem hi, List.getElem?_range hi]
      simp only [Option.map_some]
      rw [(hn i ss[i] (List.getElem?_eq_getElem hi)).1]
    · rw [List.getElem?_eq_none (by omega), List.getElem?_eq_none (by simp; omega)]
      rfl
  refine ⟨?_, ?_, ?_, ?_, ?_, ?_⟩
  · show (([] : List Nat) ++ ((ss.filter Sys.free).map (·.uid) ++ (ss.filter fun s => !s.free).map (·.uid))).Perm _
    have := (filter_split_perm ss Sys.free).map (·.uid)
    rw [List.map_append, huids] at this
    exact this
  · intro x hx
    obtain ⟨h1, h2⟩ := List.mem_filter.mp hx
    refine ⟨x, hself x h1, ?_, ?_, by simpa using h2⟩
    · intro j
      show _ ↔ _ ∧ j ∉ ([] : List Nat)
      simp
    · intro j; simp
  · intro x hx
    obtain ⟨h1, h2⟩ := List.mem_filter.mp hx
    obtain ⟨e1, e2⟩ := (free_iff _).mp h2
    refine ⟨x, hself x h1, ?_, ?_⟩
    · intro j hj; rw [e2] at hj; cases hj
    · intro j hj; rw [e1] at hj; cases hj
  · intro pre p post he
    have : ([] : List (Nat × Sys W ε)) = pre ++ p :: post := he
    simp at this
  · intro j hj; cases hj
  · intro n
    show n ∈ ([] : List Nat) ↔ n ∈ ([] : List Nat) ∨ Label.unique n ∈ ([] : List Label)
    simp

theorem Num.noted {ss : List (Sys W ε)} (hn : Num ss) : Num (ss.map Sys.noteAfter) := by
  intro i s hs
  rw [List.getElem?_map] at hs
  cases hx : ss[i]? with
  | none => rw [hx] at hs; cases hs
  | some x =>
    rw [hx] at hs
    simp only [Option.map_some, Option.some.injEq] at hs
    subst hs
    rw [List.length_map]
    exact hn i x hx

/-- `order_systems` terminates; either it places everything, or what is left waits for itself. -/
theorem orderSystems_ok {ss : List (Sys W ε)} (hn : Num ss) (hne : ss ≠ []) :
    ∃ o, DInv o ∧ Final (ss.map Sys.noteAfter) o ∧
      orderSystems ss = (if o.rest.isEmpty then .ok o else .error (.err (.cycle (o.rest.map (·.name))))) := by
  have hn := hn.noted
  obtain ⟨o, h1, h2, h3⟩ := loop_ok hn (ss.length + 1) (Order.init (ss.map Sys.noteAfter)) [] (.init hn) (.init _) (by
    refine Nat.lt_succ_of_le ?_
    exact Nat.le_trans (List.length_filter_le _ _) (Nat.le_of_eq (List.length_map _)))
  refine ⟨o, h2, h3, ?_⟩
  unfold orderSystems
  have : ss.isEmpty = false := by simp [hne]
  rw [this]
  simp only [Bool.false_eq_true, if_false]
  show (Order.loop (ss.length + 1) (Order.init (ss.map Sys.noteAfter))).bind _ = _
  rw [h1]; rfl

end Verif.Sched
