import Verif.Spec.UniquePresence
import Verif.Props.BorrowRace
import Verif.Props.BorrowViews
import Verif.Props.Borrow

/-!
# C84: asking whether the uniques of a workload are there
-/
namespace Verif.Borrow

open Verif.Sched (TypeInfo)

theorem uniqueName_eq : uniqueName = uniqueStorage := by decide

theorem named_iff {types : Nat → StoType} (hr : Regular types) (s : Nat) :
    uniqueName.isPrefixOf (types s).name = true ↔ (types s).IsUnique := by
  have hreg := hr s
  rw [uniqueName_eq, List.isPrefixOf_iff_prefix]
  cases h : types s with
  | allStorages => simp [StoType.IsUnique, StoType.name, allStoragesPath, uniqueStorage]
  | entities => simp [StoType.IsUnique, StoType.name, entitiesPath, uniqueStorage]
  | sparseSet a => simp [StoType.IsUnique, StoType.name, sparseSetPath, uniqueStorage]
  | unique a => simp [StoType.IsUnique, StoType.name, uniquePath, uniqueStorage]
  | custom n =>
    simp only [StoType.IsUnique, StoType.name, iff_false]
    exact hreg n h

/-- The unique is asked for and is not there. -/
def Missing (types : Nat → StoType) (st : Cells) (l : Nat × Bool) : Prop := (types l.1).IsUnique ∧ st.present l.1 = false

theorem checkUniques_none {types : Nat → StoType} (hr : Regular types) {st : Cells} {ls : List (Nat × Bool)} :
    checkUniques types st.present ls = none ↔ ∀ l ∈ ls, ¬ Missing types st l := by
  induction ls with
  | nil => simp [checkUniques]
  | cons l ls ih =>
    have hn := named_iff hr l.1
    simp only [checkUniques, List.mem_cons, forall_eq_or_imp]
    rw [← ih, Missing, ← hn]
    cases st.present l.1 <;> cases uniqueName.isPrefixOf (types l.1).name <;> simp

theorem checkUniques_some {types : Nat → StoType} (hr : Regular types) {st : Cells} {ls : List (Nat × Bool)} {l : Nat × Bool}
    (h : checkUniques types st.present ls = some l) :
    ∃ b a, ls = b ++ l :: a ∧ Missing types st l ∧ ∀ k ∈ b, ¬ Missing types st k := by
  induction ls with
  | nil => cases h
  | cons k ls ih =>
    have hn := named_iff hr k.1
    unfold checkUniques at h
    split at h
    · rename_i hc
      simp only [Bool.and_eq_true, Bool.not_eq_true'] at hc
      cases h
      exact ⟨[], ls, rfl, ⟨hn.mp hc.1, hc.2⟩, by simp⟩
    · rename_i hc
      obtain ⟨b, a, h1, h2, h3⟩ := ih h
      refine ⟨k :: b, a, by rw [h1]; rfl, h2, fun m hm => ?_⟩
      rcases List.mem_cons.mp hm with rfl | hm
      · rintro ⟨m1, m2⟩
        exact hc (by rw [hn.mpr m1, m2]; rfl)
      · exact h3 m hm

theorem checkSystems_none {types : Nat → StoType} (hr : Regular types) {st : Cells} {ls : List (List (Nat × Bool))} :
    checkSystems types st.present ls = none ↔ ∀ s ∈ ls, ∀ l ∈ s, ¬ Missing types st l := by
  induction ls with
  | nil => simp [checkSystems]
  | cons s ls ih =>
    simp only [List.mem_cons, forall_eq_or_imp]
    rw [← ih, ← checkUniques_none hr, checkSystems]
    cases hc : checkUniques types st.present s <;> simp

theorem checkSystems_some {types : Nat → StoType} (hr : Regular types) {st : Cells} {xs : List USys} {l : Nat × Bool}
    (h : checkSystems types st.present (xs.map USys.constraints) = some l) :
    ∃ b x a, xs = b ++ x :: a ∧ (∀ y ∈ b, ∀ k ∈ y.constraints, ¬ Missing types st k)
      ∧ ∃ b' a', x.constraints = b' ++ l :: a' ∧ Missing types st l ∧ ∀ k ∈ b', ¬ Missing types st k := by
  induction xs with
  | nil => cases h
  | cons x xs ih =>
    rw [List.map_cons] at h
    unfold checkSystems at h
    cases hc : checkUniques types st.present x.constraints with
    | some k =>
      rw [hc] at h
      cases h
      exact ⟨[], x, xs, rfl, by simp, checkUniques_some hr hc⟩
    | none =>
      rw [hc] at h
      obtain ⟨b, y, a, h1, h2, h3⟩ := ih h
      refine ⟨x :: b, y, a, by rw [h1]; rfl, fun z hz => ?_, h3⟩
      rcases List.mem_cons.mp hz with rfl | hz
      · exact (checkUniques_none hr).mp hc
      · exact h2 z hz

theorem takes_req (rs : List WReq) (st : Cells) : st.takes (rs.map .req) = st.params rs := by
  induction rs generalizing st with
  | nil => rfl
  | cons r rs ih =>
    simp only [List.map_cons, Cells.takes, Cells.params, Cells.param, ih]
    rfl

/-! ### What a successful borrow says about uniques -/

/-- The uniques of `st'` are those of `st`. -/
def SameUniques (types : Nat → StoType) (st st' : Cells) : Prop := ∀ s, (types s).IsUnique → st'.present s = st.present s

theorem act_present {st st' : Cells} {s : Nat} {e : Ev} {b : Bool} (h : st.act s e = .ok (st', b)) : st'.present = st.present := by
  unfold Cells.act at h
  split at h <;> cases h <;> rfl

theorem guard_present {st st' : Cells} {s : Nat} {x b : Bool} (h : st.guard s x = .ok (st', b)) : st'.present = st.present := by
  unfold Cells.guard at h
  split at h
  · cases h; rfl
  · exact act_present h

theorem dropAll_present {st st' : Cells} {all : Bool} (h : st.dropAll all = .ok st') : st'.present = st.present := by
  unfold Cells.dropAll at h
  split at h
  · cases hc : st.act allCell .dropShared with
    | error e => rw [hc] at h; cases h
    | ok p => rw [hc] at h; cases h; exact act_present hc
  · cases h; rfl

theorem cloneAll_present {st st' : Cells} {all : Bool} (h : st.cloneAll all = .ok st') : st'.present = st.present := by
  unfold Cells.cloneAll at h
  split at h
  · cases hc : st.act allCell .clone with
    | error e => rw [hc] at h; cases h
    | ok p => rw [hc] at h; cases h; exact act_present hc
  · cases h; rfl

theorem dropGuard_present {st st' : Cells} {s : Nat} {x : Bool} (h : st.dropGuard s x = .ok st') : st'.present = st.present := by
  unfold Cells.dropGuard at h
  cases hc : st.act s (if x then .dropExclusive else .dropShared) with
  | error e => rw [hc] at h; cases h
  | ok p => rw [hc] at h; cases h; exact act_present hc

theorem create_uniques {types : Nat → StoType} {st : Cells} {s : Nat} {a : List Char} (h : types s = .sparseSet a) :
    SameUniques types st (st.create s) := by
  intro k hk
  unfold Cells.create
  split
  · rfl
  · have : k ≠ s := by
      rintro rfl
      rw [h] at hk
      exact hk
    simp [this]

mutual
theorem borrow_some {types : Nat → StoType} (r : Req) (ht : r.Typed types) (hn : r.NoOpt) {st st' : Cells} {all : Bool} {v : View}
    (h : st.borrow all r = .ok (st', some v)) :
    SameUniques types st st' ∧ ∀ l ∈ r.leaves, ¬ Missing types st l := by
  match r with
  | .unit =>
    rw [Cells.borrow] at h
    cases hd : st.dropAll all with
    | error e => rw [hd] at h; cases h
    | ok s1 =>
      rw [hd] at h
      cases h
      exact ⟨fun s _ => by rw [dropAll_present hd], by simp [Req.leaves]⟩
  | .view s x create trackOk =>
    rw [Cells.borrow] at h
    unfold Cells.borrowView at h
    have hc : SameUniques types st (if create then st.create s else st) := by
      obtain ⟨_, ⟨_, hc, _⟩ | ⟨hc, a, ha⟩ | ⟨hc, _⟩⟩ := ht
      · rw [hc]; exact fun _ _ => rfl
      · rw [hc]; exact create_uniques ha
      · rw [hc]; exact fun _ _ => rfl
    generalize (if create then st.create s else st) = st0 at h hc
    simp only [] at h
    split at h
    · cases hd : st0.dropAll all with
      | error e => rw [hd] at h; cases h
      | ok s1 => rw [hd] at h; cases h
    · rename_i hp
      cases hg : st0.guard s x with
      | error e => rw [hg] at h; cases h
      | ok p =>
        obtain ⟨s1, got⟩ := p
        rw [hg] at h
        simp only [Except.bind] at h
        have hpres := guard_present hg
        split at h
        · cases hd : s1.dropAll all with
          | error e => rw [hd] at h; cases h
          | ok s2 => rw [hd] at h; cases h
        · split at h
          · cases hd : s1.dropGuard s x with
            | error e => rw [hd] at h; cases h
            | ok s2 =>
              rw [hd] at h
              cases hd2 : s2.dropAll all with
              | error e => simp only [hd2] at h; cases h
              | ok s3 => simp only [hd2] at h; cases h
          · cases h
            refine ⟨fun k hk => by rw [hpres]; exact hc k hk, fun l hl => ?_⟩
            simp only [Req.leaves, List.mem_singleton] at hl
            subst hl
            rintro ⟨h1, h2⟩
            exact hp ((hc s h1).trans h2)
  | .opt _ => exact hn.elim
  | .tuple rs =>
    rw [Cells.borrow] at h
    cases hb : st.borrowEach all rs with
    | error e => rw [hb] at h; cases h
    | ok p =>
      obtain ⟨s1, vs⟩ := p
      rw [hb] at h
      simp only [Except.bind] at h
      cases hd : s1.dropAll all with
      | error e => rw [hd] at h; cases h
      | ok s2 =>
        rw [hd] at h
        cases vs with
        | none => cases h
        | some vs =>
          cases h
          obtain ⟨h1, h2⟩ := borrowEach_some rs (by simpa only [Req.Typed] using ht) (by simpa only [Req.NoOpt] using hn) hb
          exact ⟨fun s hs => by rw [dropAll_present hd]; exact h1 s hs, by simpa only [Req.leaves] using h2⟩
theorem borrowEach_some {types : Nat → StoType} (rs : List Req) (ht : Req.TypedAll types rs) (hn : Req.NoOptAll rs) {st st' : Cells}
    {all : Bool} {vs : List View} (h : st.borrowEach all rs = .ok (st', some vs)) :
    SameUniques types st st' ∧ ∀ l ∈ Req.leavesAll rs, ¬ Missing types st l := by
  match rs with
  | [] =>
    rw [Cells.borrowEach] at h
    cases h
    exact ⟨fun _ _ => rfl, by simp [Req.leavesAll]⟩
  | r :: rs =>
    rw [Cells.borrowEach] at h
    simp only [Req.TypedAll, Req.NoOptAll] at ht hn
    cases hc : st.cloneAll all with
    | error e => rw [hc] at h; cases h
    | ok s0 =>
      rw [hc] at h
      simp only [Except.bind] at h
      have hp0 := cloneAll_present hc
      cases hb : s0.borrow all r with
      | error e => rw [hb] at h; cases h
      | ok p =>
        obtain ⟨s1, v⟩ := p
        rw [hb] at h
        cases v with
        | none => cases h
        | some v =>
          simp only [] at h
          obtain ⟨h1, h2⟩ := borrow_some r ht.1 hn.1 hb
          cases hb2 : s1.borrowEach all rs with
          | error e => rw [hb2] at h; cases h
          | ok p =>
            obtain ⟨s2, ws⟩ := p
            rw [hb2] at h
            cases ws with
            | none =>
              simp only [] at h
              cases hd : s2.dropView v with
              | error e => rw [hd] at h; cases h
              | ok s3 => rw [hd] at h; cases h
            | some ws =>
              cases h
              obtain ⟨h3, h4⟩ := borrowEach_some rs ht.2 hn.2 hb2
              have hk : ∀ s, (types s).IsUnique → s1.present s = st.present s := fun s hs => by rw [h1 s hs, hp0]
              refine ⟨fun s hs => (h3 s hs).trans (hk s hs), fun l hl hm => ?_⟩
              rw [Req.leavesAll, List.mem_append] at hl
              rcases hl with hl | hl
              · exact h2 l hl ⟨hm.1, by rw [hp0]; exact hm.2⟩
              · exact h4 l hl ⟨hm.1, by rw [hk _ hm.1]; exact hm.2⟩
end

theorem params_some {types : Nat → StoType} (hall : ¬ (types allCell).IsUnique) (rs : List WReq)
    (ht : ∀ q, .views q ∈ rs → q.Typed types ∧ q.NoOpt) {st st' : Cells} {vs : List View}
    (h : st.params rs = .ok (st', some vs)) : ∀ l ∈ (rs.map Param.req).flatMap Param.declares, ¬ Missing types st l := by
  induction rs generalizing st st' vs with
  | nil => simp
  | cons r rs ih =>
    unfold Cells.params at h
    cases hb : st.worldBorrow r with
    | error e => rw [hb] at h; cases h
    | ok p =>
      obtain ⟨s1, v⟩ := p
      rw [hb] at h
      simp only [Except.bind] at h
      cases v with
      | none => cases h
      | some v =>
        simp only [] at h
        cases hb2 : s1.params rs with
        | error e => rw [hb2] at h; cases h
        | ok p =>
          obtain ⟨s2, ws⟩ := p
          rw [hb2] at h
          cases ws with
          | none =>
            simp only [] at h
            cases hd : s2.dropView v with
            | error e => rw [hd] at h; cases h
            | ok s3 => rw [hd] at h; cases h
          | some ws =>
            have hrest := ih (fun q hq => ht q (by simp [hq])) hb2
            have hfst : SameUniques types st s1 ∧ ∀ l ∈ Param.declares (.req r), ¬ Missing types st l := by
              cases r with
              | views q =>
                unfold Cells.worldBorrow at hb
                cases hg : st.guard allCell false with
                | error e => rw [hg] at hb; cases hb
                | ok p =>
                  obtain ⟨s0, got⟩ := p
                  rw [hg] at hb
                  simp only [Except.bind] at hb
                  have hp := guard_present hg
                  split at hb
                  · cases hb
                  · obtain ⟨h1, h2⟩ := borrow_some q (ht q (by simp)).1 (ht q (by simp)).2 hb
                    exact ⟨fun s hs => by rw [h1 s hs, hp], fun l hl hm => h2 l hl ⟨hm.1, by rw [hp]; exact hm.2⟩⟩
              | allStorages x =>
                simp only [Cells.worldBorrow] at hb
                cases hg : st.guard allCell x with
                | error e => rw [hg] at hb; cases hb
                | ok p =>
                  obtain ⟨s0, got⟩ := p
                  rw [hg] at hb
                  simp only [Except.map] at hb
                  injection hb with hb
                  injection hb with hb _
                  subst hb
                  refine ⟨fun s _ => by rw [guard_present hg], fun l hl => ?_⟩
                  simp only [Param.declares, List.mem_singleton] at hl
                  subst hl
                  exact fun hm => hall hm.1
            intro l hl
            rw [List.map_cons, List.flatMap_cons, List.mem_append] at hl
            rcases hl with hl | hl
            · exact hfst.2 l hl
            · exact fun hm => hrest l hl ⟨hm.1, by rw [hfst.1 _ hm.1]; exact hm.2⟩

/-! ### One system alone -/

theorem solo {base st : Cells} {mode : Nat → Nat → Mode} {held : Nat → Held} {me : Nat} (as rest : List Act)
    (h : RaceInv base mode held st [⟨me, as ++ rest⟩]) : ∃ st', st.execAll me as = .ok (st', true) := by
  induction as generalizing st held with
  | nil => exact ⟨st, rfl⟩
  | cons a as ih =>
    have hc : Compatible mode 1 := fun i j s hi hj hij => by omega
    obtain ⟨st1, h1, h2⟩ := h.step (i := 0) (me := me) (a := a) (rest := as ++ rest) hc rfl
    obtain ⟨st2, h3⟩ := ih h2
    exact ⟨st2, by simp only [Cells.execAll, h1]; exact h3⟩

theorem infos_alone {st : Cells} {main : Nat} {types : Nat → StoType} {x : USys} {rs : List WReq} (h : Takes st main types x rs) :
    Sched.ValidViews (rs.flatMap (WReq.infos st)) := by
  refine ⟨fun t ht hs hx => ?_, h.views⟩
  obtain ⟨r, hr, htr⟩ := List.mem_flatMap.mp ht
  have hall : r = .allStorages true := by
    cases r with
    | views q =>
      simp only [WReq.infos, List.mem_map] at htr
      obtain ⟨l, hl, rfl⟩ := htr
      exact absurd hs (h.plain.storage _ hr l hl)
    | allStorages e =>
      simp only [WReq.infos, List.mem_singleton] at htr
      subst htr
      simp only at hx
      rw [hx]
  subst hall
  have := h.alone hr
  match rs, this, hr with
  | [y], _, hr =>
    rw [List.mem_singleton] at hr
    subst hr
    rfl

mutual
theorem makes_of {types : Nat → StoType} {st : Cells} (hent : st.present entities = true) (r : Req) (ht : r.Typed types)
    (h : ∀ l ∈ r.leaves, ¬ Missing types st l) : r.Makes st := by
  match r with
  | .unit => trivial
  | .view s x create trackOk =>
    obtain ⟨h1, ⟨h2, _⟩ | ⟨h2, _⟩ | ⟨_, a, h2⟩⟩ := ht
    · exact ⟨h1, .inr (by rw [h2]; exact hent)⟩
    · exact ⟨h1, .inl h2⟩
    · refine ⟨h1, .inr ?_⟩
      have := h (s, x) (by simp [Req.leaves])
      cases hp : st.present s with
      | true => rfl
      | false => exact absurd ⟨by rw [h2]; trivial, hp⟩ this
  | .opt r => exact makes_of hent r (by simpa only [Req.Typed] using ht) (by simpa only [Req.leaves] using h)
  | .tuple rs => exact makesAll_of hent rs (by simpa only [Req.Typed] using ht) (by simpa only [Req.leaves] using h)
theorem makesAll_of {types : Nat → StoType} {st : Cells} (hent : st.present entities = true) (rs : List Req)
    (ht : Req.TypedAll types rs) (h : ∀ l ∈ Req.leavesAll rs, ¬ Missing types st l) : Req.MakesAll st rs := by
  match rs with
  | [] => trivial
  | r :: rs =>
    simp only [Req.TypedAll] at ht
    rw [Req.leavesAll] at h
    exact ⟨makes_of hent r ht.1 (fun l hl => h l (by simp [hl])), makesAll_of hent rs ht.2 (fun l hl => h l (by simp [hl]))⟩
end

theorem served_of {st : Cells} {main : Nat} {types : Nat → StoType} {x : USys} {rs : List WReq} (hok : st.Ok) (hidle : Idle st main)
    (h : Takes st main types x rs) (hm : ∀ l ∈ x.constraints, ¬ Missing types st l) : Served st x := by
  let D := (rs.map WReq.whole).flatMap View.drops
  let t : Runner := ⟨st.me, rs.flatMap WReq.acts ++ D⟩
  have hsafe := system_safe (t := t) h.plain hidle (infos_alone h) ⟨D, rfl, .refl _⟩
  have hzero : ∀ s, (st.cell s).shared = 0 ∧ (st.cell s).exclusive = 0 ∧ (st.cell s).reborrowed = 0 := by
    intro s
    have := hidle.guards s
    unfold Cell.guards at this
    omega
  have hrem : remaining [t] = (rs.flatMap WReq.acts).length + D.length := by simp [remaining, t]
  have hinit : RaceInv st (fun _ => modeOf st rs) (fun _ => Held.zero) st [t] := by
    refine ⟨(Good.of hok h.room).mono (by rw [hrem]; exact Nat.le_succ _), rfl, rfl, fun s => ?_, fun s => ?_, fun s => (hzero s).2.2,
      fun i u hu => ?_, fun i _ s => ⟨fun _ => ⟨rfl, rfl⟩, fun _ => rfl⟩, fun _ _ _ _ => ⟨rfl, rfl⟩⟩
    · exact (hzero s).1.trans (sumTo_zero (fun _ _ => rfl)).symm
    · exact (hzero s).2.1.trans (sumTo_zero (fun _ _ => rfl)).symm
    · match i, hu with
      | 0, hu => cases hu; exact hsafe.1
  obtain ⟨st', hex⟩ := solo _ _ hinit
  refine ⟨st', rs.map WReq.whole, ?_⟩
  rw [h.params, takes_req]
  refine C57_acts rs hok.base.1 rfl (fun r hr q hq => ?_) hex
  subst hq
  refine makes_of hok.base.2 q (h.typed q hr) (fun l hl => hm l ?_)
  unfold USys.constraints
  rw [h.params]
  exact List.mem_flatMap.mpr ⟨.req (.views q), List.mem_map.mpr ⟨_, hr, rfl⟩, hl⟩

theorem uniquesPresent_eq {st : Cells} {main : Nat} (hok : st.Ok) (hidle : Idle st main) (hroom : st.Room 1) (types : Nat → StoType)
    (systems : List USys) : ∃ st', st.uniquesPresent types systems = .ok (st',
        match checkSystems types st.present (systems.map USys.constraints) with | none => .ok | some l => .unique l)
      ∧ SameGuards st st' ∧ st'.present = st.present := by
  obtain ⟨s1, got, h1, h2, h3, _, h5⟩ := guard_spec (n := 0) allCell false ((Good.of hok hroom).mono (by omega)) hok.base.1
  have hp := guard_present h1
  have hgot : got = true := by
    cases got with
    | true => rfl
    | false =>
      exfalso
      have hr := h5 rfl
      have := hidle.guards allCell
      have hsync := hidle.sync
      unfold Refused at hr
      unfold Cell.guards at this hr
      rcases hr with h | ⟨h, _⟩ | ⟨h, _⟩
      · omega
      · simp [hsync] at h
      · simp [hsync] at h
  subst hgot
  have hsh := h3.shared allCell
  have hne : (s1.cell allCell).shared ≠ 0 := by
    simp only [only] at hsh
    simp at hsh
    omega
  obtain ⟨s2, h6, _, h8⟩ := dropAll_spec true h2 (fun _ => hne)
  have hdrop : s1.dropGuard allCell false = .ok s2 := h6
  refine ⟨s2, ?_, ?_, ?_⟩
  · unfold Cells.uniquesPresent
    rw [h1]
    simp only [Except.bind, Bool.true_eq_false, if_false, hdrop, Except.map, hp]
    rfl
  · intro s
    have a1 := h3.shared s
    have a2 := h3.exclusive s
    have a3 := h3.reborrowed s
    have b1 := h8.shared s
    have b2 := h8.exclusive s
    have b3 := h8.reborrowed s
    simp only [only, if_true] at a1 a2 b1 b2
    refine ⟨?_, by rw [b3, a3], ?_⟩
    · by_cases hs : s = allCell <;> simp [hs] at a1 b1 ⊢ <;> omega
    · by_cases hs : s = allCell <;> simp [hs] at a2 b2 ⊢ <;> omega
  · rw [dropAll_present h6, hp]

/-- C84: asking a workload whether its uniques are present in a world no view of which is held. It never fails, changes nothing, and
says yes if and only if every system of the workload would be given all its views by this world. -/
theorem C84_exact_partial {st : Cells} {main : Nat} (hok : st.Ok) (hidle : Idle st main) (hroom : st.Room 1)
    {types : Nat → StoType} (hreg : Regular types) (hall : types allCell = .allStorages) {systems : List USys}
    (hsys : ∀ x ∈ systems, ∃ rs, Takes st main types x rs ∧ ∀ q, .views q ∈ rs → q.NoOpt) :
    ∃ st' r, st.uniquesPresent types systems = .ok (st', r) ∧ SameGuards st st' ∧ st'.present = st.present
      ∧ (r = .ok ↔ ∀ x ∈ systems, Served st x) := by
  obtain ⟨st', h1, h2, h3⟩ := uniquesPresent_eq hok hidle hroom types systems
  refine ⟨st', _, h1, h2, h3, ?_⟩
  have hn := checkSystems_none hreg (st := st) (ls := systems.map USys.constraints)
  have : (∀ x ∈ systems, Served st x) ↔ checkSystems types st.present (systems.map USys.constraints) = none := by
    rw [hn]
    constructor
    · intro h s hs
      obtain ⟨x, hx, rfl⟩ := List.mem_map.mp hs
      obtain ⟨rs, hr, hno⟩ := hsys x hx
      obtain ⟨s1, vs, hv⟩ := h x hx
      rw [hr.params, takes_req] at hv
      have := params_some (by rw [hall]; exact id) rs (fun q hq => ⟨hr.typed q hq, hno q hq⟩) hv
      unfold USys.constraints
      rw [hr.params]
      exact this
    · intro h x hx
      obtain ⟨rs, hr, _⟩ := hsys x hx
      exact served_of hok hidle hr (h _ (List.mem_map.mpr ⟨x, hx, rfl⟩))
  rw [this]
  cases checkSystems types st.present (systems.map USys.constraints) <;> simp

/-- C84: with `Option`s of views too, a yes means that every system would be given all its views. -/
theorem C84_yes_partial {st st' : Cells} {main : Nat} (hok : st.Ok) (hidle : Idle st main) (hroom : st.Room 1)
    {types : Nat → StoType} (hreg : Regular types) {systems : List USys}
    (hsys : ∀ x ∈ systems, ∃ rs, Takes st main types x rs) (h : st.uniquesPresent types systems = .ok (st', .ok)) :
    ∀ x ∈ systems, Served st x := by
  obtain ⟨s1, h1, _, _⟩ := uniquesPresent_eq hok hidle hroom types systems
  rw [h1] at h
  intro x hx
  obtain ⟨rs, hr⟩ := hsys x hx
  refine served_of hok hidle hr ((checkSystems_none hreg (ls := systems.map USys.constraints)).mp ?_ _ (List.mem_map.mpr ⟨x, hx, rfl⟩))
  cases hc : checkSystems types st.present (systems.map USys.constraints) with
  | none => rfl
  | some l => rw [hc] at h; cases h

/-- C84: a no names a unique that is missing: all the systems before would be given their views, the one it comes from would not, and
no unique this system names before is missing. -/
theorem C84_first_partial {st st' : Cells} {main : Nat} (hok : st.Ok) (hidle : Idle st main) (hroom : st.Room 1)
    {types : Nat → StoType} (hreg : Regular types) (hall : types allCell = .allStorages) {systems : List USys}
    (hsys : ∀ x ∈ systems, ∃ rs, Takes st main types x rs ∧ ∀ q, .views q ∈ rs → q.NoOpt)
    {l : Nat × Bool} (h : st.uniquesPresent types systems = .ok (st', .unique l)) :
    ∃ before x after, systems = before ++ x :: after ∧ (∀ y ∈ before, Served st y) ∧ Unserved st x
      ∧ ∃ ls ls', x.params.flatMap Param.declares = ls ++ l :: ls' ∧ (types l.1).IsUnique ∧ st.present l.1 = false
        ∧ ∀ k ∈ ls, (types k.1).IsUnique → st.present k.1 = true := by
  obtain ⟨s1, h1, _, _⟩ := uniquesPresent_eq hok hidle hroom types systems
  rw [h1] at h
  cases hc : checkSystems types st.present (systems.map USys.constraints) with
  | none => rw [hc] at h; cases h
  | some k =>
    rw [hc] at h
    cases h
    obtain ⟨b, x, a, e, h2, b', a', h3, h4, h5⟩ := checkSystems_some hreg hc
    refine ⟨b, x, a, e, fun y hy => ?_, ?_, b', a', h3, h4.1, h4.2, fun m hm hu => ?_⟩
    · obtain ⟨rs, hr, _⟩ := hsys y (by rw [e]; simp [hy])
      exact served_of hok hidle hr (h2 y hy)
    · have hx : x ∈ systems := by rw [e]; simp
      obtain ⟨rs, hr, hno⟩ := hsys x hx
      obtain ⟨s2, o, hp, _⟩ := C39_system rs hok hr.cost
      unfold Unserved
      rw [hr.params, takes_req]
      cases o with
      | none => exact ⟨s2, hp⟩
      | some vs =>
        have := params_some (by rw [hall]; exact id) rs (fun q hq => ⟨hr.typed q hq, hno q hq⟩) hp l (by
          have : l ∈ x.constraints := by rw [h3]; simp
          unfold USys.constraints at this
          rw [hr.params] at this
          exact this)
        exact absurd h4 this
    · have := h5 m hm
      cases hp : st.present m.1 with
      | true => rfl
      | false => exact absurd ⟨hu, hp⟩ this

/-- C84: while someone holds `AllStorages` exclusively the answer is that it could not be looked at. -/
theorem C84_busy {st : Cells} (hok : st.Ok) (hroom : st.Room 1) (hx : (st.cell allCell).exclusive ≠ 0) (types : Nat → StoType)
    (systems : List USys) : ∃ st', st.uniquesPresent types systems = .ok (st', .allStorages) ∧ SameGuards st st' := by
  obtain ⟨s1, got, h1, h2, h3, _, _⟩ := guard_spec (n := 0) allCell false ((Good.of hok hroom).mono (by omega)) hok.base.1
  have hgot : got = false := by
    cases got with
    | false => rfl
    | true =>
      exfalso
      have e := h3.exclusive allCell
      have f := h3.shared allCell
      obtain ⟨h, hr⟩ := h2.ok.reach allCell
      have hone := C37_exclusive hr
      simp only [only] at e f
      simp at e f
      omega
  subst hgot
  refine ⟨s1, ?_, fun s => ?_⟩
  · unfold Cells.uniquesPresent
    rw [h1]
    rfl
  · have a1 := h3.shared s
    have a2 := h3.exclusive s
    have a3 := h3.reborrowed s
    simp only [only] at a1 a2
    refine ⟨?_, a3, ?_⟩
    · simp at a1; omega
    · simp at a2; omega

namespace Ex

/-- Storage 2 is that of a component and not made yet, the unique 3 is there, the unique 4 is not. -/
def types : Nat → StoType
  | 0 => .allStorages
  | 1 => .entities
  | 2 => .sparseSet ['a']
  | 3 => .unique ['b']
  | _ => .unique ['c']

def world : Cells :=
  { cell := fun _ => Cell.new, present := fun s => s = 0 || s = 1 || s = 3, owner := fun _ => none, isSync := fun _ => true, me := 0 }

theorem world_ok : world.Ok := ⟨fun _ => ⟨[], .new⟩, fun _ _ => rfl, by decide⟩
theorem world_room (n : Nat) (h : n + 1 < 1000) : world.Room n :=
  ⟨by have : 1000 < HIGH / 2 := by decide
      omega, fun _ => by
      have : 1000 < HIGH := by decide
      show Cell.new.shared + n + 1 < _
      have : Cell.new.shared = 0 := rfl
      omega, fun _ => rfl, fun _ h => absurd rfl h⟩
theorem world_idle : Idle world 0 := ⟨fun _ => rfl, rfl, fun _ _ h => by cases h⟩

/-- `fn(EntitiesView, ViewMut<A>, UniqueViewMut<B>)` -/
def ready : List WReq := [.views (.view 1 false false true), .views (.view 2 true true true), .views (.view 3 true false true)]
/-- `fn(ViewMut<A>, (UniqueView<C>, UniqueView<B>))` -/
def early : List WReq := [.views (.view 2 true true true), .views (.tuple [.view 4 false false true, .view 3 false false true])]

theorem ready_takes : Takes world 0 types ⟨ready.map .req, []⟩ ready where
  params := rfl
  plain := ⟨by decide, by simp [ready, WReq.leaves, Req.leaves, SoleRead, world], by decide, fun _ => rfl⟩
  typed := by
    intro q hq
    simp only [ready, List.mem_cons, List.not_mem_nil, or_false, WReq.views.injEq] at hq
    rcases hq with rfl | rfl | rfl
    · exact ⟨rfl, .inl ⟨rfl, rfl, rfl⟩⟩
    · exact ⟨rfl, .inr (.inl ⟨rfl, _, rfl⟩)⟩
    · exact ⟨rfl, .inr (.inr ⟨rfl, _, rfl⟩)⟩
  views := by decide
  alone := by simp [ready]
  room := world_room _ (by decide)
  cost := world_room _ (by decide)

theorem early_takes : Takes world 0 types ⟨early.map .req, []⟩ early where
  params := rfl
  plain := ⟨by decide, by simp [early, WReq.leaves, Req.leaves, Req.leavesAll, SoleRead, world], by decide, fun _ => rfl⟩
  typed := by
    intro q hq
    simp only [early, List.mem_cons, List.not_mem_nil, or_false, WReq.views.injEq] at hq
    rcases hq with rfl | rfl
    · exact ⟨rfl, .inr (.inl ⟨rfl, _, rfl⟩)⟩
    · unfold Req.Typed Req.TypedAll Req.TypedAll Req.TypedAll Req.Typed
      exact ⟨⟨rfl, .inr (.inr ⟨rfl, _, rfl⟩)⟩, ⟨rfl, .inr (.inr ⟨rfl, _, rfl⟩)⟩, trivial⟩
  views := by decide
  alone := by simp [early]
  room := world_room _ (by decide)
  cost := world_room _ (by decide)

/-- Non-vacuity: the first system alone can run, with the second one the missing unique is named. -/
example : (world.uniquesPresent types [⟨ready.map .req, []⟩]).map (·.2) = .ok .ok := by rfl
example : (world.uniquesPresent types [⟨ready.map .req, []⟩, ⟨early.map .req, []⟩]).map (·.2) = .ok (.unique (4, false)) := by rfl
example : Served world ⟨ready.map .req, []⟩ := by
  obtain ⟨_, h, _⟩ := uniquesPresent_eq world_ok world_idle (world_room 1 (by decide)) types [⟨ready.map .req, []⟩]
  have hreg : Regular types := fun s n h => by
    match s with
    | 0 | 1 | 2 | 3 => cases h
    | _ + 4 => cases h
  exact C84_yes_partial world_ok world_idle (world_room 1 (by decide)) hreg (fun x hx => by
    rw [List.mem_singleton] at hx
    subst hx
    exact ⟨_, ready_takes⟩) h _ (by simp)
example : ∀ q, .views q ∈ early → q.NoOpt := by
  intro q hq
  simp only [early, List.mem_cons, List.not_mem_nil, or_false, WReq.views.injEq] at hq
  rcases hq with rfl | rfl
  · trivial
  · simp only [Req.NoOpt, Req.NoOptAll, and_self]

/-- Someone holds `AllStoragesViewMut`. -/
def taken : Res Presence := do
  let (st, _) ← world.guard allCell true
  let (_, r) ← st.uniquesPresent types [⟨ready.map .req, []⟩]
  return r
example : taken = .ok .allStorages := by rfl

end Ex

/-- C84: false alarms. A system whose only parameter is an `Option` of a view of a unique, a `UniqueOrDefaultView(Mut)` or a
`UniqueOrInitView(Mut)` is always given its view, but the unique is reported as missing. -/
theorem C84_alarm_fails : ∀ x ∈ ([.req (.views (.opt (.view 4 false false true))), .orDefault 4 false, .orDefault 4 true, .orInit 4 false,
      .orInit 4 true] : List Param),
    Served Ex.world ⟨[x], []⟩ ∧ ∃ l, (Ex.world.uniquesPresent Ex.types [⟨[x], []⟩]).map (·.2) = .ok (.unique (4, l)) := by
  intro x hx
  simp only [List.mem_cons, List.not_mem_nil, or_false] at hx
  rcases hx with rfl | rfl | rfl | rfl | rfl
  · exact ⟨⟨_, _, rfl⟩, _, rfl⟩
  · exact ⟨⟨_, _, rfl⟩, _, rfl⟩
  · exact ⟨⟨_, _, rfl⟩, _, rfl⟩
  · exact ⟨⟨_, _, rfl⟩, _, rfl⟩
  · exact ⟨⟨_, _, rfl⟩, _, rfl⟩

/-- C84: the views of conditions are not looked at. A condition that cannot be given its view of a missing unique is not reported. -/
theorem C84_condition_fails : ∃ x : USys, (Ex.world.uniquesPresent Ex.types [x]).map (·.2) = .ok .ok
    ∧ ∃ c ∈ x.conditions, Unserved Ex.world ⟨c, []⟩ :=
  ⟨⟨Ex.ready.map .req, [[.req (.views (.view 4 false false true))]]⟩, rfl, _, List.mem_singleton.mpr rfl, _, rfl⟩

/-- C84: the answer is about the world as it is, not about the run of the workload. The unique is reported as missing although a first
system makes it, after which the second one is served. -/
theorem C84_later_fails : ∃ st' vs st'', Ex.world.takes [.orDefault 4 true] = .ok (st', some vs) ∧ st'.dropViews vs = .ok st''
    ∧ (Ex.world.uniquesPresent Ex.types [⟨Ex.early.map .req, []⟩]).map (·.2) = .ok (.unique (4, false))
    ∧ (st''.uniquesPresent Ex.types [⟨Ex.early.map .req, []⟩]).map (·.2) = .ok .ok :=
  ⟨_, _, _, rfl, rfl, rfl, rfl⟩

end Verif.Borrow
