import Verif.Spec.Said
import Verif.Props.Scheduler
import Verif.Props.Workloads

/-!
# C51–C55: the schedule, from what was said
-/
namespace Verif.Sched
variable {W ε : Type}

/-- The system carries what was said. -/
structure Carries (s : WSys W ε) (x : Words) : Prop where
  tags : ∀ l, l ∈ s.tags ↔ l ∈ x.tags
  before : ∀ l, l ∈ s.beforeAll ↔ l ∈ x.before
  after : ∀ l, l ∈ s.afterAll ↔ l ∈ x.after
  reqIn : ∀ l, l ∈ s.reqIn ↔ l ∈ x.reqIn
  reqBefore : ∀ l, l ∈ s.reqBefore ↔ l ∈ x.reqBefore
  reqAfter : ∀ l, l ∈ s.reqAfter ↔ l ∈ x.reqAfter

theorem mem_addLabel' (ls : List Label) (l k : Label) : k ∈ addLabel ls l ↔ k ∈ ls ++ [l] := by
  unfold addLabel
  split
  · rename_i h
    simp only [List.mem_append, List.mem_singleton]
    constructor
    · exact .inl
    · rintro (h' | rfl)
      · exact h'
      · exact h
  · rfl

theorem mem_append_congr {a b : List Label} (h : ∀ l, l ∈ a ↔ l ∈ b) (c : List Label) (k : Label) : k ∈ a ++ c ↔ k ∈ b ++ c := by
  simp only [List.mem_append, h]

theorem own_carries {s : WSys W ε} {x : Words} (h : OwnWords s x) : Carries s x := by
  induction h with
  | @ofFn t bs f tr s h =>
    unfold WSys.ofFn at h
    split at h
    · cases h
    · cases h
      exact ⟨fun _ => .rfl, fun _ => .rfl, fun _ => .rfl, fun _ => .rfl, fun _ => .rfl, fun _ => .rfl⟩
  | runIf c _ ih => exact ⟨ih.tags, ih.before, ih.after, ih.reqIn, ih.reqBefore, ih.reqAfter⟩
  | skipIf c _ ih => exact ⟨ih.tags, ih.before, ih.after, ih.reqIn, ih.reqBefore, ih.reqAfter⟩
  | beforeAll l _ ih =>
    exact ⟨ih.tags, fun k => (mem_addLabel' _ l k).trans (mem_append_congr ih.before [l] k), ih.after, ih.reqIn, ih.reqBefore, ih.reqAfter⟩
  | afterAll l _ ih =>
    exact ⟨ih.tags, ih.before, fun k => (mem_addLabel' _ l k).trans (mem_append_congr ih.after [l] k), ih.reqIn, ih.reqBefore, ih.reqAfter⟩
  | displayName l _ ih => exact ⟨ih.tags, ih.before, ih.after, ih.reqIn, ih.reqBefore, ih.reqAfter⟩
  | tag l _ ih => exact ⟨fun k => mem_append_congr ih.tags [l] k, ih.before, ih.after, ih.reqIn, ih.reqBefore, ih.reqAfter⟩
  | requireIn l _ ih =>
    exact ⟨ih.tags, ih.before, ih.after, fun k => (mem_addLabel' _ l k).trans (mem_append_congr ih.reqIn [l] k), ih.reqBefore, ih.reqAfter⟩
  | requireBefore l _ ih =>
    exact ⟨ih.tags, ih.before, ih.after, ih.reqIn, fun k => (mem_addLabel' _ l k).trans (mem_append_congr ih.reqBefore [l] k), ih.reqAfter⟩
  | requireAfter l _ ih =>
    exact ⟨ih.tags, ih.before, ih.after, ih.reqIn, ih.reqBefore, fun k => (mem_addLabel' _ l k).trans (mem_append_congr ih.reqAfter [l] k)⟩

/-- The workload carries what was said. -/
structure CarriesAll (w : Workload W ε) (me : Words) (ls : List Words) (bars : List Nat) : Prop where
  tags : ∀ l, l ∈ w.tags ↔ l ∈ me.tags
  before : ∀ l, l ∈ w.beforeAll ↔ l ∈ me.before
  after : ∀ l, l ∈ w.afterAll ↔ l ∈ me.after
  reqIn : me.reqIn = []
  reqBefore : ∀ l, l ∈ w.reqBefore ↔ l ∈ me.reqBefore
  reqAfter : ∀ l, l ∈ w.reqAfter ↔ l ∈ me.reqAfter
  length : w.systems.length = ls.length
  each : ∀ (i : Nat) s x, w.systems[i]? = some s → ls[i]? = some x → Carries s x
  barriers : w.barriers = bars

theorem mem_extendLabels' (ls new : List Label) (k : Label) : k ∈ extendLabels ls new ↔ k ∈ ls ++ new := by
  unfold extendLabels
  induction new generalizing ls with
  | nil => simp
  | cons l t ih =>
    rw [List.foldl_cons, ih, List.mem_append, mem_addLabel']
    simp only [List.mem_append, List.mem_cons, List.not_mem_nil, or_false, or_assoc]

theorem mem_append_congr2 {a b c d : List Label} (h : ∀ l, l ∈ a ↔ l ∈ b) (h' : ∀ l, l ∈ c ↔ l ∈ d) (k : Label) : k ∈ a ++ c ↔ k ∈ b ++ d := by
  simp only [List.mem_append, h, h']

theorem get_lt'' {α : Type} {l : List α} {i : Nat} {x : α} (h : l[i]? = some x) : i < l.length := (List.getElem?_eq_some_iff.mp h).1

/-- After `propagate` each system carries what was said about it and about its workload. -/
theorem propagate_carries {w : Workload W ε} {me : Words} {ls : List Words} {bars : List Nat} (h : CarriesAll w me ls bars)
    (i : Nat) (s : WSys W ε) (x : Words) (hs : w.propagate.systems[i]? = some s) (hx : (ls.map (·.and me))[i]? = some x) : Carries s x := by
  unfold Workload.propagate at hs
  simp only [List.getElem?_map, Option.map_eq_some_iff] at hs hx
  obtain ⟨s0, hs0, rfl⟩ := hs
  obtain ⟨x0, hx0, rfl⟩ := hx
  have c := h.each i s0 x0 hs0 hx0
  refine ⟨fun k => mem_append_congr2 c.tags h.tags k, fun k => ?_, fun k => ?_, fun k => ?_, fun k => ?_, fun k => ?_⟩
  · exact (mem_extendLabels' _ _ k).trans (mem_append_congr2 c.before h.before k)
  · exact (mem_extendLabels' _ _ k).trans (mem_append_congr2 c.after h.after k)
  · show k ∈ s0.reqIn ↔ k ∈ x0.reqIn ++ me.reqIn
    rw [h.reqIn, List.append_nil]
    exact c.reqIn k
  · exact (mem_extendLabels' _ _ k).trans (mem_append_congr2 c.reqBefore h.reqBefore k)
  · exact (mem_extendLabels' _ _ k).trans (mem_append_congr2 c.reqAfter h.reqAfter k)

/-- Two lists of systems after each other. -/
theorem each_append {ss ss' : List (WSys W ε)} {ls ls' : List Words} (hl : ss.length = ls.length)
    (h : ∀ (i : Nat) s x, ss[i]? = some s → ls[i]? = some x → Carries s x)
    (h' : ∀ (i : Nat) s x, ss'[i]? = some s → ls'[i]? = some x → Carries s x)
    (i : Nat) (s : WSys W ε) (x : Words) (hs : (ss ++ ss')[i]? = some s) (hx : (ls ++ ls')[i]? = some x) : Carries s x := by
  by_cases hi : i < ss.length
  · rw [List.getElem?_append_left hi] at hs
    rw [List.getElem?_append_left (by omega)] at hx
    exact h i s x hs hx
  · rw [List.getElem?_append_right (by omega)] at hs
    rw [List.getElem?_append_right (by omega)] at hx
    rw [hl] at hs
    exact h' _ s x hs hx

theorem carries_uid {ss : List (WSys W ε)} {ls : List Words} (n : Nat)
    (h : ∀ (i : Nat) s x, ss[i]? = some s → ls[i]? = some x → Carries s x)
    (i : Nat) (s : WSys W ε) (x : Words) (hs : (ss.map fun s => { s with uid := s.uid + n })[i]? = some s) (hx : ls[i]? = some x) :
    Carries s x := by
  simp only [List.getElem?_map, Option.map_eq_some_iff] at hs
  obtain ⟨s0, hs0, rfl⟩ := hs
  have c := h i s0 x hs0 hx
  exact ⟨c.tags, c.before, c.after, c.reqIn, c.reqBefore, c.reqAfter⟩

theorem chainWords_length (ts : List Nat) (ls : List Words) : (chainWords ts ls).length = ls.length := by
  induction ls generalizing ts with
  | nil => cases ts with
    | nil => rfl
    | cons t ts => cases ts <;> rfl
  | cons x xs ih => cases ts with
    | nil => rfl
    | cons t ts => cases ts with
      | nil => rfl
      | cons t' ts => show (chainWords (t' :: ts) xs).length + 1 = _; rw [ih]; rfl

theorem chainSystems_length' (ss : List (WSys W ε)) : (Workload.chainSystems ss).length = ss.length := by
  induction ss with
  | nil => rfl
  | cons s ss ih => cases ss with
    | nil => rfl
    | cons s' ss => show (Workload.chainSystems (s' :: ss)).length + 1 = _; rw [ih]; rfl

theorem chain_carries (ss : List (WSys W ε)) (ls : List Words)
    (h : ∀ (i : Nat) s x, ss[i]? = some s → ls[i]? = some x → Carries s x)
    (i : Nat) (s : WSys W ε) (x : Words) (hs : (Workload.chainSystems ss)[i]? = some s)
    (hx : (chainWords (ss.map (·.typeId)) ls)[i]? = some x) : Carries s x := by
  induction ss generalizing ls i with
  | nil => cases hs
  | cons s0 ss ih =>
    cases ss with
    | nil => exact h i s x hs hx
    | cons s1 ss =>
      cases ls with
      | nil => cases hx
      | cons x0 xs =>
        cases i with
        | zero =>
          cases hs
          cases hx
          have c := h 0 s0 x0 rfl rfl
          exact ⟨c.tags, fun k => (mem_addLabel' _ _ k).trans (mem_append_congr c.before _ k), c.after, c.reqIn, c.reqBefore, c.reqAfter⟩
        | succ i => exact ih xs (fun j t y ht hy => h (j + 1) t y ht hy) i hs hx

/-- A workload carries what was said. -/
theorem said_carries {w : Workload W ε} {me : Words} {ls : List Words} {bars : List Nat} (h : Said w me ls bars) :
    CarriesAll w me ls bars := by
  induction h with
  | new l =>
    exact ⟨fun _ => .rfl, fun _ => .rfl, fun _ => .rfl, rfl, fun _ => .rfl, fun _ => .rfl, rfl, (fun i s x hs => by cases hs), rfl⟩
  | emptyTuple t =>
    exact ⟨fun _ => .rfl, fun _ => .rfl, fun _ => .rfl, rfl, fun _ => .rfl, fun _ => .rfl, rfl, (fun i s x hs => by cases hs), rfl⟩
  | ofSystem t ho =>
    refine ⟨fun _ => .rfl, fun _ => .rfl, fun _ => .rfl, rfl, fun _ => .rfl, fun _ => .rfl, rfl, fun i s x hs hx => ?_, rfl⟩
    cases i with
    | zero => cases hs; cases hx; exact own_carries ho
    | succ i => cases hs
  | withSystem _ ho ih =>
    refine ⟨ih.tags, ih.before, ih.after, ih.reqIn, ih.reqBefore, ih.reqAfter, ?_, ?_, ih.barriers⟩
    · show (_ ++ [_]).length = (_ ++ [_]).length
      rw [List.length_append, List.length_append, ih.length]; rfl
    · refine each_append ih.length ih.each fun i s x hs hx => ?_
      cases i with
      | zero =>
        cases hs; cases hx
        have c := own_carries ho
        exact ⟨c.tags, c.before, c.after, c.reqIn, c.reqBefore, c.reqAfter⟩
      | succ i => cases hs
  | @merge w w' me me' ls ls' bars bars' _ _ ih ih' =>
    refine ⟨fun _ => .rfl, fun _ => .rfl, fun _ => .rfl, rfl, fun _ => .rfl, fun _ => .rfl, ?_, ?_, ?_⟩
    · rw [merge_systems]
      simp only [List.length_append, List.length_map, propagate_length, ih.length, ih'.length]
    · rw [merge_systems]
      refine each_append (by rw [propagate_length, List.length_map, ih.length]) (propagate_carries ih) ?_
      exact carries_uid _ (propagate_carries ih')
    · show w.barriers ++ w'.barriers.map (· + w.propagate.systems.length) = _
      rw [propagate_length, ih.barriers, ih'.barriers, ih.length]
  | append _ _ ih ih' =>
    refine ⟨ih.tags, ih.before, ih.after, ih.reqIn, ih.reqBefore, ih.reqAfter, ?_, ?_, ih.barriers⟩
    · show (_ ++ List.map _ _).length = _
      rw [List.length_append, List.length_map, List.length_append, ih.length, ih'.length]
    · exact each_append ih.length ih.each (carries_uid _ ih'.each)
  | runIf c _ ih => exact ⟨ih.tags, ih.before, ih.after, ih.reqIn, ih.reqBefore, ih.reqAfter, ih.length, ih.each, ih.barriers⟩
  | skipIf c _ ih => exact ⟨ih.tags, ih.before, ih.after, ih.reqIn, ih.reqBefore, ih.reqAfter, ih.length, ih.each, ih.barriers⟩
  | withBarrier _ ih =>
    refine ⟨ih.tags, ih.before, ih.after, ih.reqIn, ih.reqBefore, ih.reqAfter, ih.length, ih.each, ?_⟩
    show _ ++ [_] = _
    rw [ih.barriers, ih.length]
  | beforeAll l _ ih =>
    exact ⟨ih.tags, fun k => (mem_addLabel' _ l k).trans (mem_append_congr ih.before [l] k), ih.after, ih.reqIn, ih.reqBefore, ih.reqAfter,
      ih.length, ih.each, ih.barriers⟩
  | afterAll l _ ih =>
    exact ⟨ih.tags, ih.before, fun k => (mem_addLabel' _ l k).trans (mem_append_congr ih.after [l] k), ih.reqIn, ih.reqBefore, ih.reqAfter,
      ih.length, ih.each, ih.barriers⟩
  | rename l _ ih =>
    exact ⟨fun k => mem_append_congr ih.tags [l] k, ih.before, ih.after, ih.reqIn, ih.reqBefore, ih.reqAfter, ih.length, ih.each, ih.barriers⟩
  | tag l _ ih =>
    exact ⟨fun k => mem_append_congr ih.tags [l] k, ih.before, ih.after, ih.reqIn, ih.reqBefore, ih.reqAfter, ih.length, ih.each, ih.barriers⟩
  | ofFn t _ ih =>
    exact ⟨fun k => mem_append_congr ih.tags [_] k, ih.before, ih.after, ih.reqIn, ih.reqBefore, ih.reqAfter, ih.length, ih.each, ih.barriers⟩
  | intoSequential _ hw ih =>
    unfold Workload.intoSequential at hw
    split at hw
    · cases hw
      refine ⟨ih.tags, ih.before, ih.after, ih.reqIn, ih.reqBefore, ih.reqAfter, ?_, ?_, ih.barriers⟩
      · show (Workload.chainSystems _).length = _
        rw [chainSystems_length', chainWords_length, ih.length]
      · exact chain_carries _ _ ih.each
    · cases hw

theorem fresh_words {s : WSys W ε} (h : Fresh s) : ∃ x, OwnWords s x := by
  induction h with
  | ofFn h => exact ⟨_, .ofFn h⟩
  | runIf c _ ih => exact ⟨_, .runIf c ih.choose_spec⟩
  | skipIf c _ ih => exact ⟨_, .skipIf c ih.choose_spec⟩
  | beforeAll l _ _ ih => exact ⟨_, .beforeAll l ih.choose_spec⟩
  | afterAll l _ _ ih => exact ⟨_, .afterAll l ih.choose_spec⟩
  | displayName l _ _ ih => exact ⟨_, .displayName l ih.choose_spec⟩
  | tag l _ _ ih => exact ⟨_, .tag l ih.choose_spec⟩
  | requireIn l _ _ ih => exact ⟨_, .requireIn l ih.choose_spec⟩
  | requireBefore l _ _ ih => exact ⟨_, .requireBefore l ih.choose_spec⟩
  | requireAfter l _ _ ih => exact ⟨_, .requireAfter l ih.choose_spec⟩

/-- C55: all workloads that can be built are covered by `Said`. -/
theorem C55_said {w : Workload W ε} (h : Built w) : ∃ me ls bars, Said w me ls bars := by
  induction h with
  | new l _ => exact ⟨_, _, _, .new l⟩
  | ofSystem t h => exact ⟨_, _, _, .ofSystem t (fresh_words h).choose_spec⟩
  | emptyTuple t => exact ⟨_, _, _, .emptyTuple t⟩
  | withSystem _ hs ih => obtain ⟨_, _, _, h⟩ := ih; exact ⟨_, _, _, .withSystem h (fresh_words hs).choose_spec⟩
  | merge _ _ ih ih' =>
    obtain ⟨_, _, _, h⟩ := ih
    obtain ⟨_, _, _, h'⟩ := ih'
    exact ⟨_, _, _, .merge h h'⟩
  | append _ _ ih ih' =>
    obtain ⟨_, _, _, h⟩ := ih
    obtain ⟨_, _, _, h'⟩ := ih'
    exact ⟨_, _, _, .append h h'⟩
  | withBarrier _ ih => obtain ⟨_, _, _, h⟩ := ih; exact ⟨_, _, _, .withBarrier h⟩
  | runIf c _ ih => obtain ⟨_, _, _, h⟩ := ih; exact ⟨_, _, _, .runIf c h⟩
  | skipIf c _ ih => obtain ⟨_, _, _, h⟩ := ih; exact ⟨_, _, _, .skipIf c h⟩
  | beforeAll l _ _ ih => obtain ⟨_, _, _, h⟩ := ih; exact ⟨_, _, _, .beforeAll l h⟩
  | afterAll l _ _ ih => obtain ⟨_, _, _, h⟩ := ih; exact ⟨_, _, _, .afterAll l h⟩
  | rename l _ _ ih => obtain ⟨_, _, _, h⟩ := ih; exact ⟨_, _, _, .rename l h⟩
  | tag l _ _ ih => obtain ⟨_, _, _, h⟩ := ih; exact ⟨_, _, _, .tag l h⟩
  | ofFn t _ ih => obtain ⟨_, _, _, h⟩ := ih; exact ⟨_, _, _, .ofFn t h⟩
  | intoSequential _ hw ih => obtain ⟨_, _, _, h⟩ := ih; exact ⟨_, _, _, .intoSequential h hw⟩

section
variable {w : Workload W ε} {me : Words} {ls : List Words} {bars : List Nat}

theorem said_get (h : CarriesAll w me ls bars) {i : Nat} {x : Words} (hx : ls[i]? = some x) : ∃ s, w.systems[i]? = some s ∧ Carries s x :=
  have hl := get_lt'' hx
  have hl' : i < w.systems.length := by have := h.length; omega
  ⟨_, List.getElem?_eq_getElem hl', h.each i _ x (List.getElem?_eq_getElem hl') hx⟩

theorem said_get' (h : CarriesAll w me ls bars) {i : Nat} {s : WSys W ε} (hs : w.systems[i]? = some s) : ∃ x, ls[i]? = some x ∧ Carries s x :=
  have hl := get_lt'' hs
  have hl' : i < ls.length := by have := h.length; omega
  ⟨_, List.getElem?_eq_getElem hl', h.each i s _ hs (List.getElem?_eq_getElem hl')⟩

/-- The constraints on the systems of a workload are the ones that were asked for, in any workload around them. -/
theorem asked_iff (h : CarriesAll w me ls bars) (a b : Nat) : Asked ls bars a b ↔ Explicit w a b := by
  constructor
  · intro h'
    cases h' with
    | before hx hy hne hl ht =>
      obtain ⟨s, hs, cs⟩ := said_get h hx
      obtain ⟨t, ht', ct⟩ := said_get h hy
      exact .beforeAll hs ht' hne ((cs.before _).2 hl) ((ct.tags _).2 ht)
    | after hx hy hne hl ht =>
      obtain ⟨s, hs, cs⟩ := said_get h hx
      obtain ⟨t, ht', ct⟩ := said_get h hy
      exact .afterAll hs ht' hne ((ct.after _).2 hl) ((cs.tags _).2 ht)
    | barrier hk h1 h2 h3 => exact .barrier (h.barriers ▸ hk) h1 h2 (h.length ▸ h3)
  · intro h'
    cases h' with
    | beforeAll hx hy hne hl ht =>
      obtain ⟨s, hs, cs⟩ := said_get' h hx
      obtain ⟨t, ht', ct⟩ := said_get' h hy
      exact .before hs ht' hne ((cs.before _).1 hl) ((ct.tags _).1 ht)
    | afterAll hx hy hne hl ht =>
      obtain ⟨s, hs, cs⟩ := said_get' h hx
      obtain ⟨t, ht', ct⟩ := said_get' h hy
      exact .after hs ht' hne ((ct.after _).1 hl) ((cs.tags _).1 ht)
    | barrier hk h1 h2 h3 => exact .barrier (h.barriers ▸ hk) h1 h2 (h.length ▸ h3)

/-- C51: whatever was asked for, on a system, on a workload around it, or by a barrier, is what the schedule does: the first system runs
before the second one, and is in an earlier batch. -/
theorem C51_asked (hw : Built w) (h : Said w me ls bars) {sch : Scheduler W ε} {c : Created W ε} (hc : createWorkload sch w = .ok c)
    {a b : Nat} (ha : Asked ls bars a b) : c.earlier a b ∧ ∃ ka kb, c.inBatch a ka ∧ c.inBatch b kb ∧ ka < kb :=
  C51_explicit_order hw hc ((asked_iff (said_carries h) a b).1 ha)

theorem nil_of_iff {a b : List Label} (h : ∀ l, l ∈ a ↔ l ∈ b) (hb : b = []) : a = [] := by
  subst hb
  cases a with
  | nil => rfl
  | cons x t => exact absurd ((h x).1 (by simp)) (by simp)

/-- C52: systems about which no order was said, neither about them nor about a workload around them, run in the order they were
added. -/
theorem C52_asked (hw : Built w) (h : Said w me ls bars) {sch : Scheduler W ε} {c : Created W ε} (hc : createWorkload sch w = .ok c)
    {a b : Nat} {x y : Words} (hab : a < b) (hx : ls[a]? = some x) (hy : ls[b]? = some y) (fx : x.free) (fy : y.free) : c.earlier a b := by
  obtain ⟨s, hs, cs⟩ := said_get (said_carries h) hx
  obtain ⟨t, ht, ct⟩ := said_get (said_carries h) hy
  exact C52_insertion_order hw hc ⟨hab, s, t, hs, ht, ⟨nil_of_iff cs.before fx.1, nil_of_iff cs.after fx.2⟩,
    ⟨nil_of_iff ct.before fy.1, nil_of_iff ct.after fy.2⟩⟩

theorem carries_free {s : WSys W ε} {x : Words} (h : Carries s x) : Unordered s ↔ x.free :=
  ⟨fun u => ⟨nil_of_iff (fun l => (h.before l).symm) u.1, nil_of_iff (fun l => (h.after l).symm) u.2⟩,
    fun u => ⟨nil_of_iff h.before u.1, nil_of_iff h.after u.2⟩⟩

theorem due_iff (h : CarriesAll w me ls bars) (a b : Nat) : Due ls bars a b ↔ Before w a b := by
  unfold Due Before
  rw [asked_iff h]
  refine or_congr Iff.rfl (and_congr Iff.rfl ⟨?_, ?_⟩)
  · rintro ⟨x, y, hx, hy, fx, fy⟩
    obtain ⟨s, hs, cs⟩ := said_get h hx
    obtain ⟨t, ht, ct⟩ := said_get h hy
    exact ⟨s, t, hs, ht, (carries_free cs).2 fx, (carries_free ct).2 fy⟩
  · rintro ⟨s, t, hs, ht, us, ut⟩
    obtain ⟨x, hx, cx⟩ := said_get' h hs
    obtain ⟨y, hy, cy⟩ := said_get' h ht
    exact ⟨x, y, hx, hy, (carries_free cx).1 us, (carries_free cy).1 ut⟩

/-- C53: with a free name and nothing required, building succeeds exactly when what was said can be met: no system has to be before itself
by a chain of what was asked for and of the order in which the others were added. Otherwise the cycle is reported. -/
theorem C53_asked (hw : Built w) (h : Said w me ls bars) {sch : Scheduler W ε} (hname : sch.contains w.name = false)
    (hreq : ∀ x ∈ ls, x.reqIn = [] ∧ x.reqBefore = [] ∧ x.reqAfter = []) :
    ((∃ c, createWorkload sch w = .ok c) ↔ ¬ ∃ a, Relation.TransGen (Due ls bars) a a) ∧
    ((∃ names, createWorkload sch w = .error (.err (.cycle names))) ↔ ∃ a, Relation.TransGen (Due ls bars) a a) := by
  have hc := said_carries h
  have e : Due ls bars = Before w := by
    funext a b
    exact propext (due_iff hc a b)
  rw [e]
  refine And.symm (C53_cycle_iff hw hname fun s hs => ?_)
  obtain ⟨i, hi⟩ := List.mem_iff_getElem?.1 hs
  obtain ⟨x, hx, cx⟩ := said_get' hc hi
  obtain ⟨r1, r2, r3⟩ := hreq x (List.mem_of_getElem? hx)
  exact ⟨nil_of_iff cx.reqIn r1, nil_of_iff cx.reqBefore r2, nil_of_iff cx.reqAfter r3⟩

/-- C54: building reports a system that is missing in the workload exactly when one was required with a tag that nothing in the
workload has: no system, and no workload around one. -/
theorem C54_asked_in (hw : Built w) (h : Said w me ls bars) {sch : Scheduler W ε} (hname : sch.contains w.name = false) :
    (∃ n labels, createWorkload sch w = .error (.err (.missingInWorkload n labels))) ↔
      ∃ x ∈ ls, ∃ l ∈ x.reqIn, ∀ y ∈ ls, l ∉ y.tags := by
  have hc := said_carries h
  rw [(C54_require_in_exact hw hname).1]
  constructor
  · rintro ⟨s, hs, l, hl, hn⟩
    obtain ⟨i, hi⟩ := List.mem_iff_getElem?.1 hs
    obtain ⟨x, hx, cx⟩ := said_get' hc hi
    refine ⟨x, List.mem_of_getElem? hx, l, (cx.reqIn l).1 hl, fun y hy hly => ?_⟩
    obtain ⟨j, hj⟩ := List.mem_iff_getElem?.1 hy
    obtain ⟨t, ht, ct⟩ := said_get hc hj
    exact hn ⟨t, List.mem_of_getElem? ht, (ct.tags l).2 hly⟩
  · rintro ⟨x, hx, l, hl, hn⟩
    obtain ⟨i, hi⟩ := List.mem_iff_getElem?.1 hx
    obtain ⟨s, hs, cs⟩ := said_get hc hi
    refine ⟨s, List.mem_of_getElem? hs, l, (cs.reqIn l).2 hl, ?_⟩
    rintro ⟨t, ht, hlt⟩
    obtain ⟨j, hj⟩ := List.mem_iff_getElem?.1 ht
    obtain ⟨y, hy, cy⟩ := said_get' hc hj
    exact hn y (List.mem_of_getElem? hy) ((cy.tags l).1 hlt)

/-- C54: when building succeeds, each system that requires a tag before it has a system with that tag in an earlier batch. -/
theorem C54_asked_before (hw : Built w) (h : Said w me ls bars) {sch : Scheduler W ε} {c : Created W ε} (hc : createWorkload sch w = .ok c)
    {i : Nat} {x : Words} (hx : ls[i]? = some x) {l : Label} (hl : l ∈ x.reqBefore) :
    ∃ (j : Nat) (y : Words), ls[j]? = some y ∧ l ∈ y.tags ∧ c.earlier j i ∧ ∃ kj ki, c.inBatch j kj ∧ c.inBatch i ki ∧ kj < ki := by
  obtain ⟨s, hs, cs⟩ := said_get (said_carries h) hx
  obtain ⟨j, t, ht, hlt, rest⟩ := C54_require_before_sound hw hc hs ((cs.reqBefore l).2 hl)
  obtain ⟨y, hy, cy⟩ := said_get' (said_carries h) ht
  exact ⟨j, y, hy, (cy.tags l).1 hlt, rest⟩

/-- A chain of explicit constraints and closest conflicts is kept by the schedule. -/
theorem ordered_earlier (hw : Built w) {sch : Scheduler W ε} {c : Created W ε} (hc : createWorkload sch w = .ok c) {a b : Nat}
    (h : Ordered w a b) : c.earlier a b ∧ ∃ ka kb, c.inBatch a ka ∧ c.inBatch b kb ∧ ka < kb := by
  obtain ⟨_, hm, ss, o, rfl, hg, ho⟩ := created hw.wf hc
  have edge : ∀ {a b}, Explicit w a b ∨ Nearest w a b → Edge (insertSystems sch w.systems).2 w a b := by
    rintro a b (h | h)
    · exact .inl h
    · exact .inr (.inl h)
  induction h with
  | single h => exact ⟨(edge_earlier hg ho (edge h)).1, (edge_earlier hg ho (edge h)).2 h⟩
  | tail _ h ih =>
    obtain ⟨e1, e2⟩ := edge_earlier hg ho (edge h)
    obtain ⟨ka, kb, a1, a2, a3⟩ := ih.2
    obtain ⟨kb', kc, b1, b2, b3⟩ := e2 h
    have := inBatch_unique ho a2 b1
    exact ⟨earlier_trans ho ih.1 e1, ka, kc, a1, b2, by omega⟩

/-- C54: when building succeeds, each system that requires a tag after it, which it does not have itself, has a system with that tag in a
later batch. Missing: a tag the system has itself, see `C54_require_after_fails`. -/
theorem C54_asked_after_partial (hw : Built w) (h : Said w me ls bars) {sch : Scheduler W ε} {c : Created W ε}
    (hc : createWorkload sch w = .ok c) {i : Nat} {x : Words} (hx : ls[i]? = some x) {l : Label} (hl : l ∈ x.reqAfter) (hno : l ∉ x.tags) :
    ∃ (j : Nat) (y : Words), ls[j]? = some y ∧ l ∈ y.tags ∧ c.earlier i j ∧ ∃ ki kj, c.inBatch i ki ∧ c.inBatch j kj ∧ ki < kj := by
  obtain ⟨s, hs, cs⟩ := said_get (said_carries h) hx
  obtain ⟨_, hm, _⟩ := created hw.wf hc
  obtain ⟨j, t, ht, hord, hlt⟩ := (hm i s hs).2.2 l ((cs.reqAfter l).2 hl)
  obtain ⟨y, hy, cy⟩ := said_get' (said_carries h) ht
  rcases hord with hord | ⟨rfl, _⟩
  · exact ⟨j, y, hy, (cy.tags l).1 hlt, ordered_earlier hw hc hord⟩
  · rw [hx] at hy
    cases hy
    exact absurd ((cy.tags l).1 hlt) hno

end

/-- Workload 2, with systems 2 and 3 and a barrier between them, nested after workload 1, whose system 1 carries tag 9 because its workload
does; and `say` about workload 2. -/
def saidDemo (say : Workload Nat Unit → Workload Nat Unit) : Workload Nat Unit :=
  (((Workload.new (.str 1)).withSystem (Ex.sys 1 [])).addTag (.str 9)).merge
    (say ((((Workload.new (.str 2)).withSystem (Ex.sys 2 [])).withBarrier).withSystem (Ex.sys 3 [])))

/-- Workload 2 is put after tag 9. -/
abbrev afterDemo : Workload Nat Unit := saidDemo (·.addAfterAll (.str 9))

theorem afterDemo_built : Built afterDemo :=
  .merge (.tag _ trivial (.withSystem (.new _ trivial) (Ex.sys_fresh _ _ rfl)))
    (.afterAll _ trivial (.withSystem (.withBarrier (.withSystem (.new _ trivial) (Ex.sys_fresh _ _ rfl))) (Ex.sys_fresh _ _ rfl)))

theorem afterDemo_said : Said afterDemo (.tagged [])
    [⟨[.system 1, .str 1, .str 9], [], [], [], [], []⟩, ⟨[.system 2, .str 2], [], [.str 9], [], [], []⟩,
      ⟨[.system 3, .str 2], [], [.str 9], [], [], []⟩] [2] :=
  .merge (.tag _ (.withSystem (.new _) (.ofFn (bs := []) (tr := []) rfl)))
    (.afterAll _ (.withSystem (.withBarrier (.withSystem (.new _) (.ofFn (bs := []) (tr := []) rfl))) (.ofFn (bs := []) (tr := []) rfl)))

theorem afterDemo_ok : ∃ c, createWorkload Scheduler.empty afterDemo = .ok c ∧ c.plan = [(0, 0), (1, 1), (2, 2)] := by
  have h : (createWorkload Scheduler.empty afterDemo).toOption.map (fun c => c.plan) = some [(0, 0), (1, 1), (2, 2)] := rfl
  cases hc : createWorkload Scheduler.empty afterDemo with
  | error e => rw [hc] at h; cases h
  | ok c =>
    rw [hc] at h
    exact ⟨c, rfl, Option.some.inj h⟩

/-- System 1 runs before systems 2 and 3, and system 2 before system 3. -/
example : ∃ c, createWorkload Scheduler.empty afterDemo = .ok c ∧ c.earlier 0 1 ∧ c.earlier 0 2 ∧ c.earlier 1 2 :=
  let ⟨c, hc, _⟩ := afterDemo_ok
  ⟨c, hc, (C51_asked afterDemo_built afterDemo_said hc (.after (l := .str 9) rfl rfl (by decide) (by simp) (by simp))).1,
    (C51_asked afterDemo_built afterDemo_said hc (.after (l := .str 9) rfl rfl (by decide) (by simp) (by simp))).1,
    (C51_asked afterDemo_built afterDemo_said hc (.barrier (k := 2) (by simp) (by decide) (by decide) (by decide))).1⟩

/-- Finding: a barrier in a workload reaches the systems of the workloads it is nested with: those added before count as before the
barrier, those added after as after it. So system 1 is put before system 3, which nobody asked for, and workload 2 cannot be put before
system 1 (a cycle is reported), although without the barrier it can. -/
theorem C55_barrier_outside_fails :
    (createWorkload Scheduler.empty (saidDemo id)).toOption.map (fun c => c.batches.parallel) = some [(none, [0, 1]), (none, [2])]
    ∧ (match createWorkload Scheduler.empty (saidDemo (·.addBeforeAll (.str 9))) with
        | .error (.err (.cycle ls)) => decide (ls = [.system 1, .system 3]) | _ => false) = true
    ∧ (createWorkload Scheduler.empty (saidDemo fun w => { w.addBeforeAll (.str 9) with barriers := [] })).toOption.map
        (fun c => c.batches.parallel) = some [(none, [1, 2]), (none, [0])] :=
  ⟨rfl, rfl, rfl⟩

/-- Required: tag `l`, by system 2. -/
def needDemo (l : Label) : Workload Nat Unit :=
  (((Workload.new (.str 1)).withSystem (Ex.sys 1 [])).addTag (.str 9)).merge
    ((Workload.new (.str 2)).withSystem ((Ex.sys 2 []).requireIn l))

theorem needDemo_built (l : Label) (h : l.user) : Built (needDemo l) :=
  .merge (.tag _ trivial (.withSystem (.new _ trivial) (Ex.sys_fresh _ _ rfl)))
    (.withSystem (.new _ trivial) (.requireIn _ h (Ex.sys_fresh _ _ rfl)))

theorem needDemo_said (l : Label) : Said (needDemo l) (.tagged [])
    [⟨[.system 1, .str 1, .str 9], [], [], [], [], []⟩, ⟨[.system 2, .str 2], [], [], [l], [], []⟩] [] :=
  .merge (.tag _ (.withSystem (.new _) (.ofFn (bs := []) (tr := []) rfl)))
    (.withSystem (.new _) (.requireIn _ (.ofFn (bs := []) (tr := []) rfl)))

/-- Nothing has tag 8; system 1 has tag 9 through its workload. -/
example : (∃ n labels, createWorkload Scheduler.empty (needDemo (.str 8)) = .error (.err (.missingInWorkload n labels)))
    ∧ ¬ ∃ n labels, createWorkload Scheduler.empty (needDemo (.str 9)) = .error (.err (.missingInWorkload n labels)) :=
  ⟨(C54_asked_in (needDemo_built (.str 8) trivial) (needDemo_said _) rfl).2
      ⟨⟨[.system 2, .str 2], [], [], [.str 8], [], []⟩, by simp, .str 8, by simp, by simp⟩,
    fun h => by
      obtain ⟨x, hx, l, hl, hn⟩ := (C54_asked_in (needDemo_built (.str 9) trivial) (needDemo_said _) rfl).1 h
      have ht := hn ⟨[.system 1, .str 1, .str 9], [], [], [], [], []⟩ (by simp)
      simp only [List.mem_cons, List.not_mem_nil, or_false] at hx
      rcases hx with rfl | rfl
      · cases hl
      · simp at hl
        subst hl
        exact ht (by simp)⟩

/-- Two systems that write storage 5; system 1 requires system 2 after it, system 2 requires system 1 before it. -/
def mutualDemo : Workload Nat Unit :=
  ((Workload.new (.str 1)).withSystem ((Ex.sys 1 [Ex.viewMut 5]).requireAfter (.system 2))).withSystem
    ((Ex.sys 2 [Ex.viewMut 5]).requireBefore (.system 1))

theorem mutualDemo_built : Built mutualDemo :=
  .withSystem (.withSystem (.new _ trivial) (.requireAfter _ trivial (Ex.sys_fresh _ _ rfl)))
    (.requireBefore _ trivial (Ex.sys_fresh _ _ rfl))

theorem mutualDemo_said : Said mutualDemo (.tagged [.str 1])
    [⟨[.system 1], [], [], [], [], [.system 2]⟩, ⟨[.system 2], [], [], [], [.system 1], []⟩] [] :=
  .withSystem (.withSystem (.new _) (.requireAfter _ (.ofFn (bs := [Ex.viewMut 5]) (tr := []) rfl)))
    (.requireBefore _ (.ofFn (bs := [Ex.viewMut 5]) (tr := []) rfl))

example : ∃ c, createWorkload Scheduler.empty mutualDemo = .ok c ∧ (∃ j, c.earlier j 1) ∧ ∃ j, c.earlier 0 j := by
  have h : (createWorkload Scheduler.empty mutualDemo).toOption.map (fun c => c.plan) = some [(0, 0), (1, 1)] := rfl
  cases hc : createWorkload Scheduler.empty mutualDemo with
  | error e => rw [hc] at h; cases h
  | ok c =>
    obtain ⟨j, _, _, _, hj, _⟩ := C54_asked_before mutualDemo_built mutualDemo_said hc (i := 1) rfl (l := .system 1) (by simp)
    obtain ⟨k, _, _, _, hk, _⟩ := C54_asked_after_partial mutualDemo_built mutualDemo_said hc (i := 0) rfl (l := .system 2) (by simp) (by simp)
    exact ⟨c, rfl, ⟨j, hj⟩, k, hk⟩

end Verif.Sched
