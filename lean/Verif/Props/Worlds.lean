import Verif.Spec.Worlds
import Verif.Props.Tracking
import Verif.Props.Takeover

/-!
# C100: worlds do not influence each other
-/
namespace Verif.Worlds
open StoSpec TrkSpec Tracking
variable {T : Type}

/-- World `i` as a world of `Spec/Tracking.lean`, with the counter of the world. -/
def State.seen (m : State T) (i : Nat) (w : World T) : TrkSpec.World T :=
  ⟨⟨m.prog.count w.counter, w.lastRun⟩, m.session i, m.used i, w.all.set⟩

theorem does_eq {a b c : TrkSpec.World T} {x : Act T} (h : TrkSpec.Does a x b) (e : c = b) : TrkSpec.Does a x c := e ▸ h

theorem actsOf_append (i : Nat) (a b : List (Deed T)) : actsOf i (a ++ b) = actsOf i a ++ actsOf i b := by
  simp [actsOf, List.filterMap_append]

/-- The flags the worlds were made with. -/
def flags (ds : List (Deed T)) : List (Bool × Bool × Bool × Bool) :=
  ds.filterMap fun
    | .new a b c d => some (a, b, c, d)
    | _ => none

theorem flags_append (a b : List (Deed T)) : flags (a ++ b) = flags a ++ flags b := by
  simp [flags, List.filterMap_append]

theorem flagsOf_eq (i : Nat) (ds : List (Deed T)) : flagsOf i ds = (flags ds)[i]? := rfl

structure Own (ds : List (Deed T)) (m : State T) : Prop where
  counters : m.prog.counters.length = m.prog.worlds.length
  made : (flags ds).length = m.prog.worlds.length
  own : ∀ (i : Nat) (w : World T), m.prog.worlds[i]? = some w → w.counter = i ∧ w.all.counter = i
  prog : ∀ (i : Nat) (w : World T), m.prog.worlds[i]? = some w →
    ∃ a b c d, flagsOf i ds = some (a, b, c, d) ∧ Prog (TrkSpec.World.init a b c d) (actsOf i ds) (m.seen i w)
  rest : ∀ i, m.prog.worlds.length ≤ i → m.session i = (fun _ => none) ∧ m.used i = [] ∧ actsOf i ds = []

theorem Own.init : Own ([] : List (Deed T)) State.init :=
  ⟨rfl, rfl, fun i w h => by simp [State.init] at h, fun i w h => by simp [State.init] at h, fun _ _ => ⟨rfl, rfl, rfl⟩⟩

/-- What an act in world `i` must do for the invariant to stay. -/
theorem Own.act {ds : List (Deed T)} {m m' : State T} (h : Own ds m) {i : Nat} {via : Bool} {a : Act T} {w w' : World T}
    (hw : m.prog.worlds[i]? = some w) (hws : m'.prog.worlds = m.prog.worlds.set i w')
    (hc : w'.counter = w.counter) (hc' : w'.all.counter = w.all.counter)
    (hcs : ∃ n, m'.prog.counters = m.prog.counters.set i n)
    (hses : ∀ j, j ≠ i → m'.session j = m.session j) (huse : ∀ j, j ≠ i → m'.used j = m.used j)
    (hd : TrkSpec.Does (m.seen i w) a (m'.seen i w')) : Own (ds ++ [.act i via a]) m' := by
  have hlt : i < m.prog.worlds.length := (List.getElem?_eq_some_iff.1 hw).1
  obtain ⟨n, hcs⟩ := hcs
  have hfl : flags (ds ++ [Deed.act i via a]) = flags ds := by simp [flags]
  refine ⟨by rw [hws, hcs]; simpa using h.counters, by rw [hfl, hws]; simpa using h.made, ?_, ?_, ?_⟩
  · intro j x hx
    rw [hws] at hx
    by_cases hji : j = i
    · subst hji
      rw [List.getElem?_set_self hlt] at hx
      cases hx
      rw [hc, hc']
      exact h.own j w hw
    · rw [List.getElem?_set_ne (Ne.symm hji)] at hx
      exact h.own j x hx
  · intro j x hx
    rw [flagsOf_eq, hfl, actsOf_append]
    rw [hws] at hx
    by_cases hji : j = i
    · subst hji
      rw [List.getElem?_set_self hlt] at hx
      cases hx
      obtain ⟨a1, b1, c1, d1, hf, hp⟩ := h.prog j w hw
      refine ⟨a1, b1, c1, d1, hf, ?_⟩
      have : actsOf j [Deed.act j via a] = [a] := by simp [actsOf]
      rw [this]
      exact hp.snoc hd
    · rw [List.getElem?_set_ne (Ne.symm hji)] at hx
      obtain ⟨a1, b1, c1, d1, hf, hp⟩ := h.prog j x hx
      refine ⟨a1, b1, c1, d1, hf, ?_⟩
      have : actsOf j [Deed.act i via a] = [] := by simp [actsOf, Ne.symm hji]
      rw [this, List.append_nil]
      have hs : m'.seen j x = m.seen j x := by
        have hcx := (h.own j x hx).1
        simp only [State.seen, Program.count, hses j hji, huse j hji, hcs, hcx]
        congr 2
        rw [List.getD_eq_getElem?_getD, List.getD_eq_getElem?_getD, List.getElem?_set_ne (Ne.symm hji)]
      rw [hs]; exact hp
  · intro j hj
    rw [hws, List.length_set] at hj
    have hji : j ≠ i := by omega
    obtain ⟨h1, h2, h3⟩ := h.rest j hj
    refine ⟨by rw [hses j hji, h1], by rw [huse j hji, h2], ?_⟩
    rw [actsOf_append, h3]
    simp [actsOf, Ne.symm hji]

theorem Own.does {ds : List (Deed T)} {m m' : State T} {d : Deed T} (h : Own ds m) (hd : Does m d m')
    (hx : ∀ i j, d ≠ .exchange i j) : Own (ds ++ [d]) m' := by
  have hset : ∀ i : Nat, m.prog.counters = m.prog.counters.set i (m.prog.counters.getD i 0) := by
    intro i
    apply List.ext_getElem?
    intro k
    by_cases hk : k = i
    · subst hk
      by_cases hl : k < m.prog.counters.length
      · rw [List.getElem?_set_self hl, List.getD_eq_getElem?_getD, List.getElem?_eq_getElem hl]; rfl
      · rw [List.getElem?_eq_none (by omega), List.getElem?_eq_none (by simp; omega)]
    · rw [List.getElem?_set_ne (Ne.symm hk)]
  cases hd with
  | @new ins mod del rem =>
    have hfl : flags (ds ++ [Deed.new (T := T) ins mod del rem]) = flags ds ++ [(ins, mod, del, rem)] := by simp [flags]
    refine ⟨by simp [Program.newWorld, h.counters], by rw [hfl]; simp [Program.newWorld, h.made], ?_, ?_, ?_⟩
    · intro i w hw
      simp only [Program.newWorld] at hw
      by_cases hi : i < m.prog.worlds.length
      · rw [List.getElem?_append_left hi] at hw; exact h.own i w hw
      · rw [List.getElem?_append_right (by omega)] at hw
        have : i - m.prog.worlds.length = 0 := by
          have := (List.getElem?_eq_some_iff.1 hw).1
          simp at this; omega
        rw [this] at hw
        simp at hw
        subst hw
        have h1 := h.counters
        constructor <;> (simp only []; omega)
    · intro i w hw
      simp only [Program.newWorld] at hw
      have ha : actsOf i (ds ++ [Deed.new (T := T) ins mod del rem]) = actsOf i ds := by simp [actsOf]
      rw [flagsOf_eq, hfl, ha]
      by_cases hi : i < m.prog.worlds.length
      · rw [List.getElem?_append_left hi] at hw
        obtain ⟨a1, b1, c1, d1, hf, hp⟩ := h.prog i w hw
        refine ⟨a1, b1, c1, d1, by rw [List.getElem?_append_left (by rw [h.made]; exact hi)]; exact hf, ?_⟩
        have hs : State.seen { m with prog := m.prog.newWorld (SparseSet.new ins mod del rem) } i w = m.seen i w := by
          have hcx := (h.own i w hw).1
          simp only [State.seen, Program.count, Program.newWorld, hcx]
          congr 2
          rw [List.getD_eq_getElem?_getD, List.getD_eq_getElem?_getD,
            List.getElem?_append_left (by rw [h.counters]; exact hi)]
        rw [hs]; exact hp
      · rw [List.getElem?_append_right (by omega)] at hw
        have h0 : i - m.prog.worlds.length = 0 := by
          have := (List.getElem?_eq_some_iff.1 hw).1
          simp at this; omega
        rw [h0] at hw
        simp at hw
        subst hw
        have hi' : i = m.prog.worlds.length := by omega
        obtain ⟨h1, h2, h3⟩ := h.rest i (by omega)
        refine ⟨ins, mod, del, rem, by rw [List.getElem?_append_right (by rw [h.made]; omega), h.made, h0]; rfl, ?_⟩
        rw [h3]
        have hs : State.seen { m with prog := m.prog.newWorld (SparseSet.new ins mod del rem) } i
            ⟨m.prog.counters.length, ⟨m.prog.counters.length, SparseSet.new ins mod del rem⟩, fun _ => 0⟩ =
            (TrkSpec.World.init ins mod del rem : TrkSpec.World T) := by
          simp only [State.seen, Program.count, Program.newWorld, h1, h2, TrkSpec.World.init, Clock.new]
          congr 2
          rw [List.getD_eq_getElem?_getD, List.getElem?_append_right (Nat.le_refl _)]
          simp
        rw [hs]
        exact .nil
    · intro i hi
      simp only [Program.newWorld, List.length_append, List.length_cons, List.length_nil] at hi
      obtain ⟨h1, h2, h3⟩ := h.rest i (by omega)
      exact ⟨h1, h2, by rw [actsOf_append, h3]; simp [actsOf]⟩
  | @start i w p via sys hw hp hv =>
    obtain ⟨ho1, ho2⟩ := h.own i w hw
    have hr : (if via = true then w.counter else w.all.counter) = i := by split <;> assumption
    have hlt : i < m.prog.worlds.length := (List.getElem?_eq_some_iff.1 hw).1
    have hcnt : i < m.prog.counters.length := by rw [h.counters]; exact hlt
    cases sys with
    | none =>
      refine h.act (w' := w) hw ?_ rfl rfl ⟨m.prog.count i + 1, ?_⟩ ?_ ?_ ?_
      · simp only [Program.start, Program.getCurrent]
        apply List.ext_getElem?
        intro k
        by_cases hk : k = i
        · subst hk; rw [List.getElem?_set_self hlt, hw]
        · rw [List.getElem?_set_ne (Ne.symm hk)]
      · simp only [Program.start, Program.getCurrent, hr]
      · intro j hj; simp [upd, hj]
      · intro j hj; simp [upd, hj]
      · have := TrkSpec.Does.start (w := m.seen i w) (p := p) (sys := none) hp
        refine does_eq this ?_
        simp only [State.seen, Program.start, Program.getCurrent, hr]
        simp [Program.count, ho1, Clock.start, Clock.getCurrent, upd, hcnt]
    | some b =>
      refine h.act (w' := { w with lastRun := fun x => if x = b then m.prog.count i else w.lastRun x }) hw ?_ rfl rfl
        ⟨m.prog.count i + 1, ?_⟩ ?_ ?_ ?_
      · simp only [Program.start, Program.getCurrent, hr]
      · simp only [Program.start, Program.getCurrent, hr]
      · intro j hj; simp [upd, hj]
      · intro j hj; simp [upd, hj]
      · have := TrkSpec.Does.start (w := m.seen i w) (p := p) (sys := some b) hp
        refine does_eq this ?_
        simp only [State.seen, Program.start, Program.getCurrent, hr]
        simp [Program.count, ho1, Clock.start, Clock.getCurrent, upd, hcnt]
  | @call i w p via ev s set' hw hs hst hctl hstamp =>
    refine h.act (w' := { w with all := { w.all with set := set' } }) hw rfl rfl rfl ⟨_, hset i⟩
      (fun _ _ => rfl) (fun _ _ => rfl) ?_
    exact TrkSpec.Does.call (w := m.seen i w) hs hst hctl hstamp
  | @look i w p via e s ins mod hw hs hv h1 h2 =>
    refine h.act (w' := w) hw ?_ rfl rfl ⟨_, hset i⟩ (fun _ _ => rfl) (fun _ _ => rfl) ?_
    · apply List.ext_getElem?
      intro k
      by_cases hk : k = i
      · subst hk; rw [List.getElem?_set_self (List.getElem?_eq_some_iff.1 hw).1, hw]
      · rw [List.getElem?_set_ne (Ne.symm hk)]
    · exact TrkSpec.Does.look (w := m.seen i w) hs hv h1 h2
  | @list i w p via s hw hs =>
    refine h.act (w' := w) hw ?_ rfl rfl ⟨_, hset i⟩ (fun _ _ => rfl) (fun _ _ => rfl) ?_
    · apply List.ext_getElem?
      intro k
      by_cases hk : k = i
      · subst hk; rw [List.getElem?_set_self (List.getElem?_eq_some_iff.1 hw).1, hw]
      · rw [List.getElem?_set_ne (Ne.symm hk)]
    · exact TrkSpec.Does.list (w := m.seen i w) hs
  | @clearIns i w p via s hw hs =>
    refine h.act (w' := { w with all := { w.all with set := w.all.set.clearAllInserted s.current } }) hw rfl rfl rfl
      ⟨_, hset i⟩ (fun j hj => by simp [upd, hj]) (fun _ _ => rfl) ?_
    have := TrkSpec.Does.clearIns (w := m.seen i w) hs
    refine does_eq this ?_
    simp [State.seen, Program.store, Program.count, upd]
  | @clearMod i w p via s hw hs =>
    refine h.act (w' := { w with all := { w.all with set := w.all.set.clearAllModified s.current } }) hw rfl rfl rfl
      ⟨_, hset i⟩ (fun j hj => by simp [upd, hj]) (fun _ _ => rfl) ?_
    have := TrkSpec.Does.clearMod (w := m.seen i w) hs
    refine does_eq this ?_
    simp [State.seen, Program.store, Program.count, upd]
  | @worldClearIns i w via hw =>
    obtain ⟨ho1, ho2⟩ := h.own i w hw
    refine h.act (w' := { w with all := { w.all with set := w.all.set.clearAllInserted (m.prog.count w.all.counter) } })
      hw rfl rfl rfl ⟨_, hset i⟩ (fun _ _ => rfl) (fun _ _ => rfl) ?_
    have := TrkSpec.Does.worldClearIns (w := m.seen i w)
    refine does_eq this ?_
    simp [State.seen, Program.clearInserted, Program.count, worldClearInserted, Clock.timestamp, ho1, ho2]
  | @worldClearMod i w via hw =>
    obtain ⟨ho1, ho2⟩ := h.own i w hw
    refine h.act (w' := { w with all := { w.all with set := w.all.set.clearAllModified (m.prog.count w.all.counter) } })
      hw rfl rfl rfl ⟨_, hset i⟩ (fun _ _ => rfl) (fun _ _ => rfl) ?_
    have := TrkSpec.Does.worldClearMod (w := m.seen i w)
    refine does_eq this ?_
    simp [State.seen, Program.clearModified, Program.count, worldClearModified, Clock.timestamp, ho1, ho2]
  | exchange => exact absurd rfl (hx _ _)

theorem Own.runs {ds : List (Deed T)} {m : State T} (h : Runs ds m) (hx : Apart ds) : Own ds m := by
  induction h with
  | nil => exact Own.init
  | snoc _ hd ih =>
    refine (ih fun i j hm => hx i j (List.mem_append_left _ hm)).does hd fun i j he => ?_
    exact hx i j (List.mem_append_right _ (by rw [he]; exact List.mem_singleton.2 rfl))

/-! ## The property -/

/-- C100, programs without exchanges: what happens in a world is, in every program over any number of worlds, something that
happens to a world that is alone. All theorems about programs of one world (C23, C25, C64, C89) hold of it. -/
theorem C100_apart_partial {ds : List (Deed T)} {m : State T} (h : Runs ds m) (hx : Apart ds) {i : Nat} {w : World T}
    (hw : m.prog.worlds[i]? = some w) :
    ∃ ins mod del rem, flagsOf i ds = some (ins, mod, del, rem) ∧
      ∃ alone, Prog (TrkSpec.World.init ins mod del rem) (actsOf i ds) alone ∧ alone.set = w.all.set ∧
        alone.session = m.session i := by
  obtain ⟨a, b, c, d, hf, hp⟩ := (Own.runs h hx).prog i w hw
  exact ⟨a, b, c, d, hf, _, hp, rfl, rfl⟩

/-- C100, programs without exchanges: what a run of a system of world `i` is told depends on what happened in world `i`
only, and is right. -/
theorem C100_reported_partial {ds : List (Deed T)} {m : State T} {i : Nat} {via : Bool} {r b : Nat} {e : EId} {ins mod c d : Bool}
    (h : Runs (ds ++ [.act i via (.look r e ins mod)]) m) (hx : Apart ds) (hf : flagsOf i ds = some (true, true, c, d))
    (hn : NoTakeover (events (actsOf i ds))) (hr : (r, some b) ∈ starts (actsOf i ds)) :
    ∃ w, m.prog.worlds[i]? = some w ∧
    (ins = true ↔ (∃ v, w.all.set.get e = .ok (some v)) ∧
      ∃ p, bornBy (actsOf i ds) e = some p ∧ reporter (actsOf i ds) b p = some r) ∧
    (mod = true ↔ (∃ v, w.all.set.get e = .ok (some v)) ∧
      ∃ p, writtenBy (actsOf i ds) e = some p ∧ reporter (actsOf i ds) b p = some r) := by
  have hx' : Apart (ds ++ [Deed.act i via (Act.look (T := T) r e ins mod)]) := by
    intro j k hm
    rcases List.mem_append.1 hm with hm | hm
    · exact hx j k hm
    · exact absurd (List.mem_singleton.1 hm) (fun h => by cases h)
  have ho := Own.runs h hx'
  have hlt : i < m.prog.worlds.length := by
    have h1 : (flags ds)[i]? = some (true, true, c, d) := hf
    have h2 := (List.getElem?_eq_some_iff.1 h1).1
    have h3 := ho.made
    rw [flags_append, List.length_append] at h3
    omega
  have hw : m.prog.worlds[i]? = some m.prog.worlds[i] := List.getElem?_eq_getElem hlt
  refine ⟨_, hw, ?_⟩
  obtain ⟨a', b', c', d', hf', hp⟩ := ho.prog i _ hw
  have hff : flagsOf i (ds ++ [Deed.act i via (Act.look (T := T) r e ins mod)]) = flagsOf i ds := by simp [flagsOf]
  rw [hff, hf] at hf'
  cases hf'
  rw [actsOf_append] at hp
  have : actsOf i [Deed.act i via (Act.look (T := T) r e ins mod)] = [.look r e ins mod] := by simp [actsOf]
  rw [this] at hp
  exact C23_reported_iff_partial hp hn hr

/-- C100, all programs: an act in one world leaves the storages and the systems of all others as they are. -/
theorem C100_others {m m' : State T} {i j : Nat} {via : Bool} {a : Act T} (h : Does m (.act i via a) m') (hj : j ≠ i) :
    m'.prog.worlds[j]? = m.prog.worlds[j]? ∧ m'.session j = m.session j := by
  cases h with
  | start hw =>
    rename_i sys _ _
    cases sys <;> simp [Program.start, Program.getCurrent, upd, hj, List.getElem?_set_ne (Ne.symm hj)]
  | call => simp [Program.store, List.getElem?_set_ne (Ne.symm hj)]
  | look => exact ⟨rfl, rfl⟩
  | list => exact ⟨rfl, rfl⟩
  | clearIns => simp [Program.store, upd, hj, List.getElem?_set_ne (Ne.symm hj)]
  | clearMod => simp [Program.store, upd, hj, List.getElem?_set_ne (Ne.symm hj)]
  | worldClearIns => simp [Program.clearInserted, List.getElem?_set_ne (Ne.symm hj)]
  | worldClearMod => simp [Program.clearModified, List.getElem?_set_ne (Ne.symm hj)]

/-- C100, all programs: an exchange exchanges what is stored, all other worlds keep it, and a second exchange undoes the
first. -/
theorem C100_exchange {m m' : State T} {i j : Nat} (h : Does m (.exchange i j) m') :
    (∃ a b a' b', m.prog.worlds[i]? = some a ∧ m.prog.worlds[j]? = some b ∧ m'.prog.worlds[i]? = some a' ∧
      m'.prog.worlds[j]? = some b' ∧ a'.all.set = b.all.set ∧ b'.all.set = a.all.set ∧
      a'.lastRun = a.lastRun ∧ b'.lastRun = b.lastRun) ∧
    (∀ k, k ≠ i → k ≠ j → m'.prog.worlds[k]? = m.prog.worlds[k]?) ∧
    ∀ m'', Does m' (.exchange i j) m'' → m''.prog = m.prog := by
  cases h with
  | @exchange _ _ a b ha hb hij =>
    have hi : i < m.prog.worlds.length := (List.getElem?_eq_some_iff.1 ha).1
    have hj : j < m.prog.worlds.length := (List.getElem?_eq_some_iff.1 hb).1
    have h1 : (m.prog.exchange i j a b).worlds[i]? = some { a with all := b.all } := by
      rw [Program.exchange, List.getElem?_set_ne (Ne.symm hij), List.getElem?_set_self hi]
    have h2 : (m.prog.exchange i j a b).worlds[j]? = some { b with all := a.all } := by
      rw [Program.exchange, List.getElem?_set_self (by simpa using hj)]
    refine ⟨⟨a, b, _, _, ha, hb, h1, h2, rfl, rfl, rfl, rfl⟩, ?_, ?_⟩
    · intro k hki hkj
      simp only [Program.exchange]
      rw [List.getElem?_set_ne (Ne.symm hkj), List.getElem?_set_ne (Ne.symm hki)]
    · intro m'' h'
      cases h' with
      | @exchange _ _ a' b' ha' hb' _ =>
        simp only [] at ha' hb' ⊢
        rw [h1] at ha'
        rw [h2] at hb'
        cases ha'
        cases hb'
        have : ∀ (ws : List (World T)), ws = m.prog.worlds →
            ((((ws.set i { a with all := b.all }).set j { b with all := a.all }).set i a).set j b) = m.prog.worlds := by
          intro ws hws
          subst hws
          apply List.ext_getElem?
          intro k
          by_cases hkj : k = j
          · subst hkj
            rw [List.getElem?_set_self (by simpa using hj), hb]
          · rw [List.getElem?_set_ne (Ne.symm hkj)]
            by_cases hki : k = i
            · subst hki
              rw [List.getElem?_set_self (by simpa using hi), ha]
            · rw [List.getElem?_set_ne (Ne.symm hki), List.getElem?_set_ne (Ne.symm hkj), List.getElem?_set_ne (Ne.symm hki)]
        have h3 := this _ rfl
        cases hm : m.prog with
        | mk cs ws =>
          simp only [Program.exchange, hm] at h3 ⊢
          rw [h3]

/-- The storage of every world has a history of its own, also after exchanges. -/
theorem stored_run {ds : List (Deed T)} {m : State T} (h : Runs ds m) (hf : ∀ f ∈ flags ds, f.1 = true) :
    ∀ (i : Nat) (w : World T), m.prog.worlds[i]? = some w → ∃ b c d hist, Run (SparseSet.new true b c d) hist w.all.set := by
  induction h with
  | nil => intro i w hw; simp [State.init] at hw
  | @snoc ds m d m' _ hd ih =>
    have ih := ih fun f hm => hf f (by rw [flags_append]; exact List.mem_append_left _ hm)
    have key : ∀ (ws : List (World T)) (i : Nat) (x : World T), (∀ (k : Nat) (w : World T), ws[k]? = some w →
          ∃ b c d hist, Run (SparseSet.new true b c d) hist w.all.set) →
        (∃ b c d hist, Run (SparseSet.new true b c d) hist x.all.set) →
        ∀ (k : Nat) (w : World T), (ws.set i x)[k]? = some w → ∃ b c d hist, Run (SparseSet.new true b c d) hist w.all.set := by
      intro ws i x h1 h2 k w hw
      by_cases hk : k = i
      · subst hk
        have hlt : k < ws.length := by
          have := (List.getElem?_eq_some_iff.1 hw).1
          simpa using this
        rw [List.getElem?_set_self hlt] at hw
        cases hw
        exact h2
      · rw [List.getElem?_set_ne (Ne.symm hk)] at hw
        exact h1 k w hw
    have ext : ∀ {s s' : SparseSet T} {ev : Event T}, (∃ b c d hist, Run (SparseSet.new true b c d) hist s) → Step s ev s' →
        ∃ b c d hist, Run (SparseSet.new true b c d) hist s' := by
      rintro s s' ev ⟨b, c, d, hist, hr⟩ hst
      exact ⟨b, c, d, _, hr.snoc hst⟩
    cases hd with
    | @new ins mod del rem =>
      intro i w hw
      have hins : ins = true := hf (ins, mod, del, rem) (by rw [flags_append]; exact List.mem_append_right _ (by simp [flags]))
      subst hins
      simp only [Program.newWorld] at hw
      by_cases hi : i < m.prog.worlds.length
      · rw [List.getElem?_append_left hi] at hw; exact ih i w hw
      · rw [List.getElem?_append_right (by omega)] at hw
        have h0 : i - m.prog.worlds.length = 0 := by
          have := (List.getElem?_eq_some_iff.1 hw).1
          simp at this; omega
        rw [h0] at hw
        simp at hw
        subst hw
        exact ⟨mod, del, rem, [], .nil⟩
    | @start i w p via sys hw =>
      cases sys with
      | none => exact ih
      | some b => exact key _ _ _ ih (ih i w hw)
    | @call i w p via ev s set' hw hs hst => exact key _ _ _ ih (ext (ih i w hw) hst)
    | look => exact ih
    | list => exact ih
    | @clearIns i w p via s hw => exact key _ _ _ ih (ext (ih i w hw) Step.clearInserted)
    | @clearMod i w p via s hw => exact key _ _ _ ih (ext (ih i w hw) Step.clearModified)
    | @worldClearIns i w via hw => exact key _ _ _ ih (ext (ih i w hw) Step.clearInserted)
    | @worldClearMod i w via hw => exact key _ _ _ ih (ext (ih i w hw) Step.clearModified)
    | @exchange i j a b ha hb hij => exact key _ _ _ (key _ _ _ ih (ih j b hb)) (ih i a ha)

/-- C100 is false after an exchange. In every program with exchanges: when the counter that came with the contents is not
ahead of the last run of a system, a component added through `AllStorages` (`World::add_entity`, `World::add_component`, ...)
is not reported to the next run of the system. -/
theorem C100_lost {ds : List (Deed T)} {m0 m1 m2 m3 m4 : State T} {i p r b t : Nat} {v1 v2 ins mod : Bool} {e : EId} {x : T}
    {w : World T} (h : Runs ds m0) (hf : ∀ f ∈ flags ds, f.1 = true) (hw : m0.prog.worlds[i]? = some w)
    (hlate : m0.prog.count w.all.counter ≤ w.lastRun b)
    (h1 : Does m0 (.act i false (.start p none)) m1) (h2 : Does m1 (.act i v1 (.call p (.inserted e x t .inserted))) m2)
    (h3 : Does m2 (.act i true (.start r (some b))) m3) (h4 : Does m3 (.act i v2 (.look r e ins mod)) m4) : ins = false := by
  have hr2 : Runs (ds ++ [.act i false (.start p none)] ++ [.act i v1 (.call p (.inserted e x t .inserted))]) m2 :=
    (h.snoc h1).snoc h2
  have hlt : i < m0.prog.worlds.length := (List.getElem?_eq_some_iff.1 hw).1
  have hr1 : Runs (ds ++ [.act i false (.start p none)]) m1 := h.snoc h1
  have hsr := stored_run hr1 (by rw [flags_append]; simpa [flags] using hf)
  cases h1 with
  | start hw0 _ _ =>
    rw [hw] at hw0
    cases hw0
    have e1 : (m0.prog.start i w false none).2.worlds = m0.prog.worlds := rfl
    have e1c : (m0.prog.start i w false none).1 = ⟨none, m0.prog.count w.all.counter⟩ := rfl
    cases h2 with
    | @call _ w1 _ _ _ s1 set' hw1 hs1 hst _ hstamp =>
      simp only [e1] at hw1
      rw [hw] at hw1
      cases hw1
      simp only [upd, if_pos, e1c, Option.some.injEq] at hs1
      subst hs1
      have ht : t = m0.prog.count w.all.counter := hstamp t rfl
      obtain ⟨b0, c0, d0, hist, hrun⟩ := hsr i w hw
      have hrun' := hrun.snoc hst
      have hgiven : givenAt (hist ++ [Event.inserted e x t .inserted]) e = some t := by
        simp [givenAt, gives]
      have e2 : (m0.prog.start i w false none).2.worlds.set i { w with all := { w.all with set := set' } } =
          m0.prog.worlds.set i { w with all := { w.all with set := set' } } := rfl
      cases h3 with
      | start hw2 _ _ =>
        simp only [Program.store, e2, List.getElem?_set_self hlt, Option.some.injEq] at hw2
        subst hw2
        cases h4 with
        | look hw3 hs3 hv hi3 _ =>
          simp only [Program.start, Program.getCurrent, Program.store, List.set_set, List.getElem?_set_self hlt,
            Option.some.injEq] at hw3
          subst hw3
          simp only [upd, if_pos, Program.start, Program.getCurrent, Option.some.injEq] at hs3
          subst hs3
          have key := fun cur => C24_inserted_exact hrun' hv (View.new set' (some (w.lastRun b)) cur) rfl
          simp only [World.view] at hi3
          obtain ⟨i', hi', hiff⟩ := key _
          have heq := hi3.symm.trans hi'
          cases heq
          cases ins with
          | false => rfl
          | true =>
            obtain ⟨_, t', ht', hwin⟩ := hiff.1 rfl
            rw [hgiven] at ht'
            cases ht'
            have := hwin.1
            simp only [View.new, Option.getD] at this
            omega

/-- C100 is false after an exchange: two new worlds, a run of system 7 in world 0, the exchange, a component is added to world 0, and
the next run of system 7 is told nothing, though it looks at the component. -/
theorem C100_fails : ∃ (m : State Nat) (w : World Nat),
    Runs [.new true true true true, .new true true true true, .act 0 true (.start 0 (some 7)), .exchange 0 1,
      .act 0 false (.start 1 none), .act 0 false (.call 1 (.inserted ⟨3, 0⟩ 10 1 .inserted)), .act 0 true (.start 2 (some 7)),
      .act 0 true (.look 2 ⟨3, 0⟩ false false)] m ∧
    m.prog.worlds[0]? = some w ∧ w.all.set.get ⟨3, 0⟩ = .ok (some 10) := by
  have h0 := Runs.nil (T := Nat)
  have h1 := h0.snoc (.new (ins := true) (mod := true) (del := true) (rem := true))
  have h2 := h1.snoc (.new (ins := true) (mod := true) (del := true) (rem := true))
  have h3 := h2.snoc (.start (i := 0) (p := 0) (via := true) (sys := some 7) rfl (by simp [State.init]) (.inl rfl))
  have h4 := h3.snoc (.exchange (i := 0) (j := 1) rfl rfl (by decide))
  have h5 := h4.snoc (.start (i := 0) (p := 1) (via := false) (sys := none) rfl (by simp [State.init, upd]) (.inr rfl))
  have h6 := h5.snoc (.call (i := 0) (p := 1) (via := false) (s := ⟨none, 1⟩) rfl rfl
    (Step.insert (e := ⟨3, 0⟩) (v := 10) (now := 1) (by decide) rfl) rfl (by intro t ht; cases ht; rfl))
  have h7 := h6.snoc (.start (i := 0) (p := 2) (via := true) (sys := some 7) rfl (by simp [State.init, upd]) (.inl rfl))
  have h8 := h7.snoc (.look (i := 0) (p := 2) (via := true) (e := ⟨3, 0⟩) (s := ⟨some 1, 2⟩) (ins := false) (mod := false)
    rfl rfl (by decide) rfl rfl)
  exact ⟨_, _, h8, rfl, rfl⟩

/-- The same program without the exchange: the run is told, as `C100_reported_partial` says. -/
theorem told_prog : ∃ (m : State Nat),
    Runs ([.new true true true true, .new true true true true, .act 0 true (.start 0 (some 7)),
      .act 0 false (.start 1 none), .act 0 false (.call 1 (.inserted ⟨3, 0⟩ 10 2 .inserted)), .act 0 true (.start 2 (some 7))] ++
      [.act 0 true (.look 2 ⟨3, 0⟩ true false)]) m := by
  have h0 := Runs.nil (T := Nat)
  have h1 := h0.snoc (.new (ins := true) (mod := true) (del := true) (rem := true))
  have h2 := h1.snoc (.new (ins := true) (mod := true) (del := true) (rem := true))
  have h3 := h2.snoc (.start (i := 0) (p := 0) (via := true) (sys := some 7) rfl (by simp [State.init]) (.inl rfl))
  have h5 := h3.snoc (.start (i := 0) (p := 1) (via := false) (sys := none) rfl (by simp [State.init, upd]) (.inr rfl))
  have h6 := h5.snoc (.call (i := 0) (p := 1) (via := false) (s := ⟨none, 2⟩) rfl rfl
    (Step.insert (e := ⟨3, 0⟩) (v := 10) (now := 2) (by decide) rfl) rfl (by intro t ht; cases ht; rfl))
  have h7 := h6.snoc (.start (i := 0) (p := 2) (via := true) (sys := some 7) rfl (by simp [State.init, upd]) (.inl rfl))
  have h8 := h7.snoc (.look (i := 0) (p := 2) (via := true) (e := ⟨3, 0⟩) (s := ⟨some 1, 3⟩) (ins := true) (mod := false)
    rfl rfl (by decide) rfl rfl)
  exact ⟨_, h8⟩

/-- The hypotheses of `C100_reported_partial` and `C100_apart_partial` are met by it. -/
example : ∃ m w, Runs ([.new true true true true, .new true true true true, .act 0 true (.start 0 (some 7)),
      .act 0 false (.start 1 none), .act 0 false (.call 1 (.inserted ⟨3, 0⟩ (10 : Nat) 2 .inserted)), .act 0 true (.start 2 (some 7))] ++
      [.act 0 true (.look 2 ⟨3, 0⟩ true false)]) m ∧ m.prog.worlds[0]? = some w ∧ ∃ v, w.all.set.get ⟨3, 0⟩ = .ok (some v) := by
  obtain ⟨m, h⟩ := told_prog
  obtain ⟨w, hw, hi, _⟩ := C100_reported_partial (c := true) (d := true) (b := 7) h
    (by intro i j hm; simp at hm) rfl (by intro e v now hm; simp [actsOf, events] at hm) (by simp [actsOf, starts])
  exact ⟨m, w, h, hw, (hi.1 rfl).1⟩

/-- Each world of the demonstration is made once, and the second one has no acts. -/
example : ∃ (m : State Nat) (w : World Nat) (alone : TrkSpec.World Nat), m.prog.worlds[1]? = some w ∧
    Prog (TrkSpec.World.init true true true true) [] alone ∧ alone.set = w.all.set := by
  obtain ⟨m, h⟩ := told_prog
  have hx : Apart ([.new true true true true, .new true true true true, .act 0 true (.start 0 (some 7)),
      .act 0 false (.start 1 none), .act 0 false (.call 1 (.inserted ⟨3, 0⟩ (10 : Nat) 2 .inserted)), .act 0 true (.start 2 (some 7))] ++
      [.act 0 true (.look 2 ⟨3, 0⟩ true false)]) := by intro i j hm; simp at hm
  have hl : 1 < m.prog.worlds.length := by rw [← (Own.runs h hx).made]; decide
  obtain ⟨a, b, c, d, hf, alone, hp, hs, _⟩ := C100_apart_partial h hx (List.getElem?_eq_getElem hl)
  have hf' : some (a, b, c, d) = some (true, true, true, true) := hf.symm
  cases hf'
  exact ⟨m, _, alone, List.getElem?_eq_getElem hl, hp, hs⟩

end Verif.Worlds
