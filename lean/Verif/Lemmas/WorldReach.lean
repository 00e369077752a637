import Verif.Lemmas.WorldOps2

/-! Cloning whole storages, and the invariant of reachable worlds. -/
namespace Verif.World
open EntSpec (Event issued aliveStep)
open StoSpec (Sto Row lookup setRow Valid removeRow insertRow)
open Entities (Inv Bounded genAt Effect)
open SparseSet (Abs Cell)
variable {V : Type} {fl : Flags}

/-! ## Cloning storages -/

/-- The table of a cloned storage. -/
def cloneTab (fl : Flags) (cl : Nat → V → V) (nowO k : Nat) (a : Sto V) : Sto V :=
  a.cloned fl cl nowO k

theorem cloneSto_ok {s : SparseSet V} {a : Sto V} {L} (h : AbsW s a L) (cl : Nat → V → V) (nowO k : Nat) :
    ∃ L', AbsW (cloneSto fl cl nowO k s) (cloneTab fl cl nowO k a) L' := by
  obtain ⟨L', hL'⟩ := SparseSet.abs_clone h.toAbs fl cl nowO k
  exact ⟨L', hL', .cloned fl cl nowO k h.lives⟩

theorem lookup_cloneTab (cl : Nat → V → V) (nowO k : Nat) (a : Sto V) (x : EId) :
    lookup (cloneTab fl cl nowO k a).rows x = (lookup a.rows x).map (cl k) := by
  unfold lookup cloneTab Sto.cloned
  simp only
  cases a.rows x.idx with
  | none => rfl
  | some r =>
    simp only [Option.map, Option.bind]
    split <;> rfl

/-- The loop over the storages: each slot is replaced or left. -/
theorem cloneLoop_lookup (cl : Nat → V → V) (nowO : Nat) (l : List (Nat × SparseSet V)) (o : World V)
    (hn : (l.map Prod.fst).Nodup) :
    (∀ k, lookupK (cloneLoop fl cl nowO l o).stos k = match lookupK l k with
      | some s => if s.canClone then some (cloneSto fl cl nowO k s) else lookupK o.stos k
      | none => lookupK o.stos k) ∧
    ((o.stos.map Prod.fst).Nodup → ((cloneLoop fl cl nowO l o).stos.map Prod.fst).Nodup) ∧
    (cloneLoop fl cl nowO l o).counter = o.counter := by
  induction l generalizing o with
  | nil => exact ⟨fun k => rfl, id, rfl⟩
  | cons x l ih =>
    obtain ⟨j, s⟩ := x
    simp only [List.map_cons, List.nodup_cons] at hn
    obtain ⟨h1, h2, h3⟩ := ih (if s.canClone then o.put j (cloneSto fl cl nowO j s) else o) hn.2
    refine ⟨?_, ?_, ?_⟩
    · intro k
      show lookupK (cloneLoop fl cl nowO l _).stos k = _
      rw [h1]
      by_cases hk : k = j
      · subst hk
        simp only [lookupK, if_true, lookupK_none.2 hn.1]
        split
        · show lookupK (setK o.stos k _) k = _
          rw [lookupK_setK, if_pos rfl]
        · rfl
      · simp only [lookupK, if_neg hk]
        have : lookupK (if s.canClone then o.put j (cloneSto fl cl nowO j s) else o).stos k = lookupK o.stos k := by
          split
          · show lookupK (setK o.stos j _) k = _
            rw [lookupK_setK, if_neg hk]
          · rfl
        rw [this]
    · intro hn'
      apply h2
      split
      · exact setK_nodup hn' _ _
      · exact hn'
    · show (cloneLoop fl cl nowO l _).counter = _
      rw [h3]
      split <;> rfl

theorem EntOK.hooks {s : Entities} {Q : List Nat} {I : List EId} (h : EntOK s Q I) (b : Bool)
    (log : List EId) : EntOK { s with hook := b, log := log } Q I :=
  ⟨⟨h.inv.list, h.inv.nodup, h.inv.chain, h.inv.own, h.inv.cap, h.inv.gens⟩, h.bnd, h.gens⟩

theorem Ok.cloneStoragesTo {w o : World V} {A B : Nat → Option (Sto V)} {Q Q2 : List Nat} {I I2 : List EId}
    (h : Ok w A Q I) (ho : Ok o B Q2 I2) (cl : Nat → V → V)
    (hemp : ∀ k s, lookupK o.stos k = some s →
      (∃ t, lookupK w.stos k = some t ∧ t.canClone = true) ∨ s.dense = []) :
    ∃ B', Ok (w.cloneStoragesTo fl cl o) B' Q I ∧ ∀ k x, look B' k x = cloned cl w A k x := by
  obtain ⟨h1, h2, h3⟩ := cloneLoop_lookup (fl := fl) cl o.counter w.stos o.tick h.nodup
  have hEnt : EntOK (w.ents.tryClone) Q I := h.ent.hooks false []
  have hal : ∀ x, w.ents.tryClone.isAlive x = w.ents.isAlive x := fun x => rfl
  have hnone : ∀ k, lookupK w.stos k = none → A k = none := by
    intro k hk
    have := h.sto k
    rw [hk] at this
    generalize A k = ao at this
    cases this; rfl
  have hsome : ∀ k s, lookupK w.stos k = some s → ∃ a L, A k = some a ∧ AbsW s a L := by
    intro k s hk
    have := h.sto k
    rw [hk] at this
    generalize A k = ao at this
    cases this with
    | some ha => exact ⟨_, _, rfl, ha⟩
  have hrowB : ∀ k s b, lookupK o.stos k = some s → s.dense = [] → B k = some b → ∀ i, b.rows i = none := by
    intro k s b hk hd hb i
    have := ho.sto k
    rw [hk, hb] at this
    cases this with
    | @some _ _ L hab =>
      have hL : s.dense = _ := congrArg SparseSet.dense hab.shape
      rw [hd] at hL
      rw [hab.rows]
      have : SparseSet.cellAt L i = none := by
        rw [SparseSet.cellAt_none]
        intro c hc
        have : c.id ∈ ([] : List EId) := by
          rw [hL]
          exact List.mem_map.2 ⟨c, hc, rfl⟩
        cases this
      rw [this]; rfl
  refine ⟨fun k => match lookupK w.stos k with
    | some s => if s.canClone then (A k).map (cloneTab fl cl o.counter k) else B k
    | none => B k, ⟨hEnt, h2 ho.nodup, ?_, ?_⟩, ?_⟩
  · intro k
    show StoOK (lookupK (cloneLoop fl cl o.counter w.stos o.tick).stos k) _
    rw [h1]
    cases hk : lookupK w.stos k with
    | none => exact ho.sto k
    | some s =>
      obtain ⟨a, L, hA, ha⟩ := hsome k s hk
      simp only
      split
      · rw [hA]
        obtain ⟨L', hL'⟩ := cloneSto_ok (fl := fl) ha cl o.counter k
        exact .some hL'
      · exact ho.sto k
  · intro k b hb i r hr
    rw [show (w.cloneStoragesTo fl cl o).ents = w.ents.tryClone from rfl, hal]
    have hB : B k = some b → (∀ t, lookupK w.stos k = some t → t.canClone = false) →
        w.ents.isAlive ⟨i, r.gen⟩ = true := by
      intro hb' hno
      have := ho.sto k
      rw [hb'] at this
      generalize hlo : lookupK o.stos k = so at this
      cases this with
      | @some s _ _ _ =>
        rcases hemp k s hlo with ⟨t, ht, ht'⟩ | hd
        · rw [hno t ht] at ht'; cases ht'
        · rw [hrowB k s b hlo hd hb' i] at hr; cases hr
    cases hk : lookupK w.stos k with
    | none => rw [hk] at hb; exact hB hb (fun t ht => by rw [hk] at ht; cases ht)
    | some s =>
      rw [hk] at hb
      simp only at hb
      split at hb
      · obtain ⟨a, L, hA, ha⟩ := hsome k s hk
        rw [hA] at hb
        cases hb
        cases hra : a.rows i with
        | none => simp only [cloneTab, Sto.cloned, hra] at hr; cases hr
        | some r' =>
          simp only [cloneTab, Sto.cloned, hra] at hr
          cases hr
          exact h.owned k a hA i r' hra
      · rename_i hc
        exact hB hb (fun t ht => by rw [hk] at ht; cases ht; simpa using hc)
  · intro k x
    have hBn : (∀ t, lookupK w.stos k = some t → t.canClone = false) → look B k x = none := by
      intro hno
      unfold look
      cases hb : B k with
      | none => rfl
      | some b =>
        have := ho.sto k
        rw [hb] at this
        generalize hlo : lookupK o.stos k = so at this
        cases this with
        | @some s _ _ _ =>
          rcases hemp k s hlo with ⟨t, ht, ht'⟩ | hd
          · rw [hno t ht] at ht'; cases ht'
          · simp [lookup, hrowB k s b hlo hd hb]
    unfold cloned
    cases hk : lookupK w.stos k with
    | none =>
      have := hBn (fun t ht => by rw [hk] at ht; cases ht)
      rw [← this]
      simp only [look, hk]
    | some s =>
      simp only
      by_cases hc : s.canClone = true
      · rw [if_pos hc]
        obtain ⟨a, L, hA, ha⟩ := hsome k s hk
        simp only [look, hk, hc, if_true, hA]
        exact lookup_cloneTab cl o.counter k a x
      · have := hBn (fun t ht => by rw [hk] at ht; cases ht; simpa using hc)
        rw [if_neg hc, ← this]
        simp only [look, hk, if_neg hc]

/-! ## The entities are left alone by the component loops -/

theorem addAll_ents (e : EId) (now : Nat) (cs : List (Nat × Option V)) :
    ∀ {w : World V} {r w'}, addAll fl e now cs w = .ok (r, w') → w'.ents = w.ents := by
  induction cs with
  | nil => intro w r w' h; cases h; rfl
  | cons c cs ih =>
    obtain ⟨k, c⟩ := c
    intro w r w' h
    cases c with
    | none => exact ih h
    | some v =>
      unfold addAll at h
      cases hi : (w.stoOr fl k).insert e v now with
      | error f => rw [hi] at h; cases h
      | ok p =>
        rw [hi] at h
        simp only [bind, Except.bind] at h
        split at h
        · rw [ih h]; rfl
        · cases h; rfl

theorem bulkCols_ents (ids : List EId) (stamp : Nat) (cols : List (Nat × List V)) :
    ∀ {w w' : World V}, bulkCols fl ids stamp cols w = .ok w' → w'.ents = w.ents := by
  induction cols with
  | nil => intro w w' h; cases h; rfl
  | cons c cols ih =>
    obtain ⟨k, vs⟩ := c
    intro w w' h
    unfold bulkCols at h
    cases hi : (w.stoOr fl k).bulkInsert ids vs stamp with
    | error f => rw [hi] at h; cases h
    | ok p =>
      rw [hi] at h
      simp only [bind, Except.bind] at h
      rw [ih h]; rfl

theorem putOpt_ents {o o' : World V} {k : Nat} {dst : EId} {nowO : Nat} {c : Option V}
    (h : putOpt fl o k dst nowO c = .ok o') : o'.ents = o.ents := by
  cases c with
  | none => cases h; rfl
  | some v =>
    simp only [putOpt] at h
    cases hi : (o.stoOr fl k).insert dst v nowO with
    | error f => rw [hi] at h; cases h
    | ok p => rw [hi] at h; cases h; rfl

theorem moveLoop_ents (src dst : EId) (now nowO : Nat) (l : List (Nat × SparseSet V)) :
    ∀ {o : World V} {l' o'}, moveLoop fl src dst now nowO l o = .ok (l', o') → o'.ents = o.ents := by
  induction l with
  | nil => intro o l' o' h; cases h; rfl
  | cons x l ih =>
    obtain ⟨k, s⟩ := x
    intro o l' o' h
    unfold moveLoop at h
    cases hi : s.dynRemove src now with
    | error f => rw [hi] at h; cases h
    | ok p =>
      rw [hi] at h
      simp only [bind, Except.bind] at h
      cases hp : putOpt fl o k dst nowO p.1 with
      | error f => rw [hp] at h; cases h
      | ok o1 =>
        rw [hp] at h
        simp only at h
        cases hm : moveLoop fl src dst now nowO l o1 with
        | error f => rw [hm] at h; cases h
        | ok q =>
          rw [hm] at h
          cases h
          rw [ih hm, putOpt_ents hp]

theorem cloneCompLoop_ents (cl : Nat → V → V) (src dst : EId) (nowO : Nat) (l : List (Nat × SparseSet V)) :
    ∀ {o o' : World V}, cloneCompLoop fl cl src dst nowO l o = .ok o' → o'.ents = o.ents := by
  induction l with
  | nil => intro o o' h; cases h; rfl
  | cons x l ih =>
    obtain ⟨k, s⟩ := x
    intro o o' h
    unfold cloneCompLoop at h
    cases hi : cloneOf cl src k s with
    | error f => rw [hi] at h; cases h
    | ok p =>
      rw [hi] at h
      simp only [bind, Except.bind] at h
      cases hp : putOpt fl o k dst nowO p with
      | error f => rw [hp] at h; cases h
      | ok o1 =>
        rw [hp] at h
        rw [ih h, putOpt_ents hp]

/-! ## Reading a successful call backwards -/

theorem addEntity_inv {w : World V} {cs e r w'} (h : w.addEntity fl cs = .ok (e, r, w')) :
    w.ents.generate = .ok (e, w'.ents) := by
  unfold World.addEntity at h
  cases hg : w.ents.generate with
  | error f => rw [hg] at h; cases h
  | ok p =>
    rw [hg] at h
    simp only [bind, Except.bind] at h
    cases ha : addAll fl p.1 w.counter cs { w.tick with ents := p.2 } with
    | error f => rw [ha] at h; cases h
    | ok q =>
      rw [ha] at h
      cases h
      rw [addAll_ents _ _ _ ha]

theorem bulkAddEntity_inv {w : World V} {cols n es w'} (h : w.bulkAddEntity fl cols n = .ok (es, w'))
    (hne : cols ≠ []) (hlen : ∀ c ∈ cols, c.2.length = n) :
    0 < n ∧ w'.ents.data.length = w.ents.data.length + n := by
  unfold World.bulkAddEntity at h
  cases hg : w.ents.bulkGenerate n with
  | error f => rw [hg] at h; cases h
  | ok p =>
    rw [hg] at h
    simp only [bind, Except.bind] at h
    have hp : p.2.data.length = w.ents.data.length + n := by
      have hll : ∀ n start l, Entities.freshIds start n = .ok l → l.length = n := by
        intro n
        induction n with
        | zero => intro start l hl; cases hl; rfl
        | succ n ih =>
          intro start l hl
          unfold Entities.freshIds at hl
          rcases h1 : EId.new start with er | x
          · rw [h1] at hl; cases hl
          · rcases h2 : Entities.freshIds (start + 1) n with er | y
            · rw [h1, h2] at hl; cases hl
            · rw [h1, h2] at hl; cases hl; simp [ih _ _ h2]
      unfold Entities.bulkGenerate at hg
      rcases hf : Entities.freshIds w.ents.data.length n with er | l
      · rw [hf] at hg; cases hg
      · rw [hf] at hg; cases hg; simp [hll _ _ _ hf]
    split at h
    · cases h
    · rename_i w1 hb
      cases h
      refine ⟨?_, by rw [bulkCols_ents _ _ _ hb]; exact hp⟩
      cases cols with
      | nil => exact absurd rfl hne
      | cons c cols =>
        obtain ⟨k, vs⟩ := c
        have hl := hlen (k, vs) List.mem_cons_self
        cases vs with
        | cons v vs => simp at hl; omega
        | nil =>
          exfalso
          unfold World.bulkCols at hb
          simp only [List.length_nil] at hl
          subst hl
          have hp1 : p.1 = [] := by
            simp only [Entities.bulkGenerate, Entities.freshIds, bind, Except.bind] at hg
            cases hg; rfl
          have : ∀ (s : SparseSet V) stamp, s.bulkInsert [] [] stamp = .error .panic := by
            intro s stamp
            unfold SparseSet.bulkInsert
            simp
          rw [hp1, this] at hb
          cases hb

theorem spawn_inv {w w' : World V} {e b} (h : w.spawn e = .ok (b, w')) :
    ∃ ents, w.ents.spawn e = .ok (b, ents) ∧ w' = { w with ents := ents } := by
  unfold World.spawn at h
  cases hg : w.ents.spawn e with
  | error f => rw [hg] at h; cases h
  | ok p => rw [hg] at h; cases h; exact ⟨_, rfl, rfl⟩

theorem moveEntity_inv {w o w' o' : World V} {e} (h : w.moveEntity fl o e = .ok (.returned, w', o'))
    {Q : List Nat} {I : List EId} (hE : EntOK w.ents Q I) :
    w.ents.isAlive e = true ∧ o.ents.spawn e = .ok (true, o'.ents) := by
  obtain ⟨s', Q', d1, _⟩ := ent_delete hE e
  unfold World.moveEntity at h
  rw [d1] at h
  simp only [bind, Except.bind] at h
  cases ha : w.ents.isAlive e with
  | false => rw [ha] at h; cases h
  | true =>
    rw [ha] at h
    simp only [if_true] at h
    cases hs : o.ents.spawn e with
    | error f => rw [hs] at h; cases h
    | ok p =>
      obtain ⟨b, entsO⟩ := p
      rw [hs] at h
      simp only at h
      cases b with
      | false => cases h
      | true =>
        simp only [if_true] at h
        split at h
        · cases h
        · rename_i q hm
          cases h
          exact ⟨rfl, by rw [moveLoop_ents _ _ _ _ _ hm]⟩

theorem cloneEntityTo_inv {w o o' : World V} {cl e} (h : w.cloneEntityTo fl cl o e = .ok (.returned, o')) :
    w.ents.isAlive e = true ∧ o.ents.spawn e = .ok (true, o'.ents) := by
  unfold World.cloneEntityTo at h
  cases ha : w.ents.isAlive e with
  | false => rw [ha] at h; cases h
  | true =>
    rw [ha] at h
    simp only [if_true, bind, Except.bind] at h
    cases hs : o.ents.spawn e with
    | error f => rw [hs] at h; cases h
    | ok p =>
      obtain ⟨b, entsO⟩ := p
      rw [hs] at h
      simp only at h
      cases b with
      | false => cases h
      | true =>
        simp only [if_true] at h
        split at h
        · cases h
        · rename_i q hm
          cases h
          exact ⟨rfl, by rw [cloneCompLoop_ents _ _ _ _ _ hm]⟩

/-! ## Reachable worlds -/

theorem issued_snoc (h : List Event) (ev : Event) : issued (h ++ [ev]) = issued h ++ ev.issued := by
  unfold issued
  simp

/-- The invariant of reachable worlds. -/
theorem reach_ok {w : World V} {h : List Event} (hr : WSpec.Reach fl w h) :
    ∃ A Q, Ok w A Q (issued h) := by
  induction hr with
  | init hook =>
    refine ⟨fun _ => none, [], ⟨Entities.new_inv hook, ?_, ?_⟩, by simp [World.new], fun k => .none,
      fun k a h => by cases h⟩
    · intro e he; cases he
    · intro i g hg; simp [genAt, Entities.new] at hg
  | @addEntity w h cs e r w' _ hs hf ih =>
    obtain ⟨A, Q, ih⟩ := ih
    obtain ⟨w1, A', Q', h1, _, h3, _⟩ := ih.addEntity (fl := fl) (addEntity_inv hs) hf cs
    rw [hs] at h1
    cases h1
    exact ⟨A', Q', by rw [issued_snoc]; exact h3⟩
  | @bulkAddEntity w h cols n es w' _ hnd hne hlen hs hf ih =>
    obtain ⟨A, Q, ih⟩ := ih
    obtain ⟨hn, hl⟩ := bulkAddEntity_inv hs hne hlen
    obtain ⟨es', w1, A', Q', h1, _, _, h3, _⟩ := ih.bulkAddEntity (fl := fl) hn hlen hnd (by
      unfold WSpec.Fits at hf; omega)
    rw [hs] at h1
    cases h1
    exact ⟨A', Q', by rw [issued_snoc]; exact h3⟩
  | @addComponent w h e cs r w' _ hs ih =>
    obtain ⟨A, Q, ih⟩ := ih
    cases ha : w.ents.isAlive e with
    | true =>
      obtain ⟨w1, A', h1, _, h3, _⟩ := ih.addComponent (fl := fl) ha cs
      rw [hs] at h1
      cases h1
      exact ⟨A', Q, h3⟩
    | false =>
      unfold World.addComponent at hs
      rw [ha] at hs
      cases hs
      exact ⟨A, Q, ih.tick⟩
  | deleteEntity _ hv hs ih =>
    obtain ⟨A, Q, ih⟩ := ih
    obtain ⟨w1, A', Q', h1, h2, _⟩ := ih.deleteEntity hv
    rw [hs] at h1
    cases h1
    refine ⟨A', Q', ?_⟩
    rw [issued_snoc]
    simpa [Event.issued] using h2
  | strip _ hv hs ih =>
    obtain ⟨A, Q, ih⟩ := ih
    obtain ⟨w1, A', h1, _, _, h2, _⟩ := ih.strip hv
    rw [hs] at h1
    cases h1
    exact ⟨A', Q, h2⟩
  | bulkStrip _ hv hs ih =>
    obtain ⟨A, Q, ih⟩ := ih
    obtain ⟨w1, A', h1, _, h2, _⟩ := ih.bulkStrip hv
    rw [hs] at h1
    cases h1
    exact ⟨A', Q, h2⟩
  | @retainStorage w h e keep w' _ hv hs ih =>
    obtain ⟨A, Q, ih⟩ := ih
    cases keep with
    | nil => cases hs; exact ⟨A, Q, ih⟩
    | cons k keep =>
      obtain ⟨w1, A', h1, _, h2, _⟩ := ih.retainStorageById hv (k :: keep)
      unfold World.retainStorage at hs
      simp only at hs
      rw [hs] at h1
      cases h1
      exact ⟨A', Q, h2⟩
  | @remove w h ks e rs w' _ hv hs ih =>
    obtain ⟨A, Q, ih⟩ := ih
    obtain ⟨rs', w1, A', h1, _, h2, _⟩ := ih.tick.removeAll (fl := fl) hv w.counter ks
    unfold World.remove at hs
    rw [hs] at h1
    cases h1
    exact ⟨A', Q, h2⟩
  | @deleteComponent w h ks e b w' _ hv hs ih =>
    obtain ⟨A, Q, ih⟩ := ih
    obtain ⟨w1, A', h1, _, h2, _⟩ := ih.tick.deleteFirst (fl := fl) hv w.counter ks
    unfold World.deleteComponent at hs
    rw [hs] at h1
    cases h1
    exact ⟨A', Q, h2⟩
  | @deleteAny w h ks order w' dead _ ho hs _ ih =>
    obtain ⟨A, Q, ih⟩ := ih
    obtain ⟨w1, A', Q', h1, h2, _⟩ := ih.deleteAny ks (order := order) (fun ids => (ho ids).2)
    rw [hs] at h1
    cases h1
    refine ⟨A', Q', ?_⟩
    have : issued (h ++ dead.map fun e => Event.deleted e true) = issued h := by
      unfold issued
      rw [List.flatMap_append]
      have : (dead.map fun e => Event.deleted e true).flatMap Event.issued = [] := by
        rw [List.flatMap_eq_nil_iff]
        intro ev hev
        obtain ⟨e, _, rfl⟩ := List.mem_map.1 hev
        rfl
      rw [this, List.append_nil]
    rw [this]
    exact h2
  | clear _ hne hs ih =>
    obtain ⟨A, Q, ih⟩ := ih
    obtain ⟨w1, A', Q', h1, h2, _⟩ := ih.clear hne
    rw [hs] at h1
    cases h1
    refine ⟨A', Q', ?_⟩
    rw [issued_snoc]
    simpa [Event.issued] using h2
  | spawn _ hv hfree hs hf ih =>
    obtain ⟨A, Q, ih⟩ := ih
    obtain ⟨ents, h1, rfl⟩ := spawn_inv hs
    obtain ⟨Q', h2, _⟩ := ih.spawn hv hfree h1 hf
    exact ⟨A, Q', by rw [issued_snoc]; exact h2⟩
  | create k _ ih =>
    obtain ⟨A, Q, ih⟩ := ih
    obtain ⟨A', h1, _⟩ := ih.create (fl := fl) k
    exact ⟨A', Q, h1⟩
  | registerClone k _ ih =>
    obtain ⟨A, Q, ih⟩ := ih
    obtain ⟨A', h1, _⟩ := ih.registerClone (fl := fl) k
    exact ⟨A', Q, h1⟩
  | view _ hl hs hev ih =>
    obtain ⟨A, Q, ih⟩ := ih
    obtain ⟨A', h1⟩ := ih.view hl hs hev
    exact ⟨A', Q, h1⟩
  | viewAdd _ hl ha hs ih =>
    obtain ⟨A, Q, ih⟩ := ih
    obtain ⟨A', h1⟩ := ih.viewAdd hl ha hs
    exact ⟨A', Q, h1⟩
  | @onDeletion w h _ ih =>
    obtain ⟨A, Q, ih⟩ := ih
    exact ⟨A, Q, ih.ents (ih.ent.hooks true []) (fun k a i r hA hr => ih.owned k a hA i r hr)⟩
  | @takeOnDeletion w h _ ih =>
    obtain ⟨A, Q, ih⟩ := ih
    exact ⟨A, Q, ih.ents (ih.ent.hooks false w.ents.log) (fun k a i r hA hr => ih.owned k a hA i r hr)⟩
  | clock c _ ih =>
    obtain ⟨A, Q, ih⟩ := ih
    exact ⟨A, Q, ih.ent, ih.nodup, ih.sto, ih.owned⟩
  | rehash l _ hp ih =>
    obtain ⟨A, Q, ih⟩ := ih
    exact ⟨A, Q, ih.rehash hp⟩
  | moveOut _ _ hfree hs hf ih iho =>
    obtain ⟨A, Q, ih⟩ := ih
    obtain ⟨B, Q2, iho⟩ := iho
    obtain ⟨ha, hsp⟩ := moveEntity_inv hs ih.ent
    obtain ⟨w1, o1, A', B', Q', Q2', h1, _, h3, _⟩ := ih.moveEntity (fl := fl) iho ha hfree hsp hf
    rw [hs] at h1
    cases h1
    refine ⟨A', Q', ?_⟩
    rw [issued_snoc]
    simpa [Event.issued] using h3
  | moveIn _ _ hfree hs hf ih iho =>
    obtain ⟨A, Q, ih⟩ := ih
    obtain ⟨B, Q2, iho⟩ := iho
    obtain ⟨ha, hsp⟩ := moveEntity_inv hs ih.ent
    obtain ⟨w1, o1, A', B', Q', Q2', h1, _, _, h4, _⟩ := ih.moveEntity (fl := fl) iho ha hfree hsp hf
    rw [hs] at h1
    cases h1
    exact ⟨B', Q2', by rw [issued_snoc]; exact h4⟩
  | @moveComponentsOut w h o ho src dst r w' o' _ _ hs ih iho =>
    obtain ⟨A, Q, ih⟩ := ih
    obtain ⟨B, Q2, iho⟩ := iho
    cases ha : w.ents.isAlive src with
    | false => simp only [World.moveComponents, ha] at hs; cases hs; exact ⟨A, Q, ih.tick⟩
    | true =>
      cases hb : o.ents.isAlive dst with
      | false => simp only [World.moveComponents, ha, hb] at hs; cases hs; exact ⟨A, Q, ih.tick⟩
      | true =>
        obtain ⟨w1, o1, A', B', h1, _, _, h3, _⟩ := ih.moveComponents (fl := fl) iho ha hb
        rw [hs] at h1
        cases h1
        exact ⟨A', Q, h3⟩
  | @moveComponentsIn w h o ho src dst r w' o' _ _ hs ih iho =>
    obtain ⟨A, Q, ih⟩ := ih
    obtain ⟨B, Q2, iho⟩ := iho
    cases ha : w.ents.isAlive src with
    | false => simp only [World.moveComponents, ha] at hs; cases hs; exact ⟨B, Q2, iho.tick⟩
    | true =>
      cases hb : o.ents.isAlive dst with
      | false => simp only [World.moveComponents, ha, hb] at hs; cases hs; exact ⟨B, Q2, iho.tick⟩
      | true =>
        obtain ⟨w1, o1, A', B', h1, _, _, _, h4, _⟩ := ih.moveComponents (fl := fl) iho ha hb
        rw [hs] at h1
        cases h1
        exact ⟨B', Q2, h4⟩
  | cloneEntityIn cl _ _ hfree hs hf ih iho =>
    obtain ⟨A, Q, ih⟩ := ih
    obtain ⟨B, Q2, iho⟩ := iho
    obtain ⟨ha, hsp⟩ := cloneEntityTo_inv hs
    obtain ⟨o1, B', Q2', h1, _, h4, _⟩ := ih.cloneEntityTo (fl := fl) iho ha cl hfree hsp hf
    rw [hs] at h1
    cases h1
    exact ⟨B', Q2', by rw [issued_snoc]; exact h4⟩
  | @cloneComponentsIn w h o ho src dst r o' cl _ _ hs ih iho =>
    obtain ⟨A, Q, ih⟩ := ih
    obtain ⟨B, Q2, iho⟩ := iho
    cases ha : w.ents.isAlive src with
    | false => simp only [World.cloneComponentsTo, ha] at hs; cases hs; exact ⟨B, Q2, iho.tick⟩
    | true =>
      cases hb : o.ents.isAlive dst with
      | false => simp only [World.cloneComponentsTo, ha, hb] at hs; cases hs; exact ⟨B, Q2, iho.tick⟩
      | true =>
        obtain ⟨o1, B', h1, _, h4, _⟩ := ih.cloneComponentsTo (fl := fl) iho ha hb cl
        rw [hs] at h1
        cases h1
        exact ⟨B', Q2, h4⟩
  | cloneStoragesIn cl _ _ hemp ih iho =>
    obtain ⟨A, Q, ih⟩ := ih
    obtain ⟨B, Q2, iho⟩ := iho
    obtain ⟨B', h1, _⟩ := ih.cloneStoragesTo (fl := fl) iho cl hemp
    exact ⟨B', Q, h1⟩

end Verif.World
