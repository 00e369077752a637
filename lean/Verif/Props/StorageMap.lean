import Verif.Lemmas.StorageMapUse

/-!
# C74: every storage is found under its id, is made once, and is lent by the rules of borrowing and of threads

The histories (`Reach`) range over any number of threads, calls and guards, in any interleaving; `custom_storage_or_insert` is two
steps, one with the read lock and one with the write lock.
-/
namespace Verif.StorageMap
open Verif.Threads (Made)

/-! ## Guards -/

/-- Every guard is on the storage that is under some id now, and only under that one; it has the type of that storage. -/
theorem C74_guard {std : Bool} {main : Nat} {h : List (Nat × Ev)} {s : St} (hr : Reach std main h s) {g : Guard} (hg : g ∈ s.guards) :
    ∃ id, On s id g ∧ typeAt s id = some g.ty ∧ ∀ id', On s id' g → id' = id := by
  have hi := reach_inv hr
  obtain ⟨b, hb⟩ := hi.guards g hg
  obtain ⟨id, hid⟩ := hi.only _ _ hb
  have hl := look_of_mem hi.keys hid
  refine ⟨id, ⟨hg, hl⟩, ?_, ?_⟩
  · rw [typeAt_eq hl hb, (hi.box _ b hb).types g hg rfl]
  · intro id' ⟨_, hl'⟩
    have hm := look_mem hl'
    have : ∀ (m : List (Id × Nat)), (m.map Prod.snd).Nodup → ∀ p ∈ m, ∀ q ∈ m, p.2 = q.2 → p = q := by
      intro m
      induction m with
      | nil => intro _ p hp; cases hp
      | cons x rest ih =>
        intro hn p hp q hq he
        rw [List.map_cons, List.nodup_cons] at hn
        rcases List.mem_cons.mp hp with e1 | hp
        · rcases List.mem_cons.mp hq with e2 | hq
          · rw [e1, e2]
          · rw [e1] at he; exact absurd (List.mem_map.mpr ⟨q, hq, he.symm⟩) hn.1
        · rcases List.mem_cons.mp hq with e2 | hq
          · rw [e2] at he; exact absurd (List.mem_map.mpr ⟨p, hp, he⟩) hn.1
          · exact ih hn.2 p hp q hq he
    exact congrArg Prod.fst (this _ hi.vals _ hm _ hid rfl)

/-- Two guards on one storage are both shared. -/
theorem C74_exclusive {std : Bool} {main : Nat} {h : List (Nat × Ev)} {s : St} (hr : Reach std main h s) {i j : Nat} {g g' : Guard}
    (hi : s.guards[i]? = some g) (hj : s.guards[j]? = some g') (hne : i ≠ j) (hb : g.box = g'.box) : g.excl = false ∧ g'.excl = false := by
  have hv := reach_inv hr
  obtain ⟨b, hbx⟩ := hv.guards g (List.mem_of_getElem? hi)
  have hk := hv.box _ b hbx
  have two : ∀ (p : Guard → Bool) (l : List Guard) (i j : Nat) (x y : Guard), l[i]? = some x → l[j]? = some y → i ≠ j → p x = true →
      p y = true → 2 ≤ l.countP p := by
    intro p l i j x y hx hy hne px py
    have h1 := countP_erase p l i x hx
    rw [if_pos px] at h1
    have hin : y ∈ l.eraseIdx i := by
      rw [List.mem_eraseIdx_iff_getElem?]
      exact ⟨j, fun e => hne e.symm, hy⟩
    have : 0 < (l.eraseIdx i).countP p := List.countP_pos_iff.mpr ⟨y, hin, py⟩
    omega
  have gm := List.mem_of_getElem? hi
  have gm' := List.mem_of_getElem? hj
  have exclOf : ∀ x ∈ s.guards, x.box = g.box → x.excl = true → b.excl = true := by
    intro x hx e ex
    cases hbe : b.excl with
    | true => rfl
    | false =>
      have := (readable_iff hv hbx).mpr hbe x hx e
      rw [this] at ex; cases ex
  have noShared : b.excl = true → ∀ x ∈ s.guards, x.box = g.box → x.excl = true := by
    intro hbe x hx e
    cases hxe : x.excl with
    | true => rfl
    | false =>
      have h0 := hk.shared
      rw [hk.alone hbe] at h0
      have := List.countP_eq_zero.mp h0 x hx
      simp [e, hxe] at this
  cases hbe : b.excl with
  | false =>
    have := (readable_iff hv hbx).mpr hbe
    exact ⟨this g gm rfl, this g' gm' hb.symm⟩
  | true =>
    have h1 := noShared hbe g gm rfl
    have h2 := noShared hbe g' gm' hb.symm
    have := two (fun x => decide (x.box = g.box) && x.excl) s.guards i j g g' hi hj hne (by simp [h1]) (by simp [hb, h2])
    have hx := hk.excl
    rw [hbe] at hx
    unfold nExcl at hx
    simp only [if_true] at hx
    omega

/-- A storage of values that cannot be shared is never seen by two threads at the same time. -/
theorem C74_not_sync {std : Bool} {main : Nat} {h : List (Nat × Ev)} {s : St} (hr : Reach std main h s) {i j : Nat} {g g' : Guard}
    (hi : s.guards[i]? = some g) (hj : s.guards[j]? = some g') {id : Id} (hon : On s id g) (hon' : On s id g') {bound : Option Nat}
    (hbd : boundTo s id = some (bound, false)) : g.thr = g'.thr := by
  have hv := reach_inv hr
  have hb : g.box = g'.box := Option.some.inj (hon.2.symm.trans hon'.2)
  obtain ⟨b, hbx⟩ := hv.guards g hon.1
  rw [boundTo_eq hon.2, hbx] at hbd
  have hs : b.isSync = false := by
    simp only [Option.map_some, Box.kind, Option.some.injEq, Prod.mk.injEq] at hbd
    exact hbd.2
  have hk := hv.box _ b hbx
  cases ht : b.send with
  | some t =>
    rw [hk.thr g (List.mem_of_getElem? hi) rfl (.inr hs) t ht, hk.thr g' (List.mem_of_getElem? hj) hb.symm (.inr hs) t ht]
  | none =>
    by_cases hne : i = j
    · subst hne
      rw [hi] at hj
      cases hj
      rfl
    · obtain ⟨e1, e2⟩ := C74_exclusive hr hi hj hne hb
      have h1 := countP_erase (fun x => decide (x.box = g.box) && !x.excl) s.guards i g hi
      rw [if_pos (by simp [e1])] at h1
      have hin : g' ∈ s.guards.eraseIdx i := by
        rw [List.mem_eraseIdx_iff_getElem?]
        exact ⟨j, fun e => hne e.symm, hj⟩
      have : 0 < (s.guards.eraseIdx i).countP (fun x => decide (x.box = g.box) && !x.excl) :=
        List.countP_pos_iff.mpr ⟨g', hin, by simp [hb, e2]⟩
      have h2 := hk.shared
      have h3 := hk.one hs ht
      unfold nShared at h2
      omega

/-- A storage of values that cannot be sent is only borrowed exclusively by the thread that made the world; when the values cannot
be shared either, it is only borrowed by that thread. -/
theorem C74_thread {std : Bool} {main : Nat} {h : List (Nat × Ev)} {s : St} (hr : Reach std main h s) {g : Guard} (hg : g ∈ s.guards)
    {id : Id} (hon : On s id g) {t : Nat} {sync : Bool} (hbd : boundTo s id = some (some t, sync)) (hx : g.excl = true ∨ sync = false) :
    g.thr = t ∧ t = s.main := by
  obtain ⟨b, hb⟩ := (reach_inv hr).guards g hg
  have hk := (reach_inv hr).box _ b hb
  rw [boundTo_eq hon.2, hb] at hbd
  simp only [Option.map_some, Box.kind, Option.some.injEq, Prod.mk.injEq] at hbd
  obtain ⟨h1, h2⟩ := hbd
  rw [← h2] at hx
  exact ⟨hk.thr g hg rfl hx t h1, hk.home t h1⟩

/-! ## Calls -/

/-- `custom_storage_by_id` and its relatives: which of the outcomes happens is settled by whether the storage is present, the
thread, the guards that exist and the type that is asked for. -/
theorem C74_find {std : Bool} {main : Nat} {h : List (Nat × Ev)} {s : St} (hr : Reach std main h s) (hp : s.poisoned = false)
    (me : Nat) (id : Id) (want : Option Ty) (excl : Bool) :
    (¬ Present s id → s.step me (.find id want excl) = some (s, .missing))
    ∧ (Present s id → ¬ ThreadFits s id excl me → s.step me (.find id want excl) = some (s, .refused id .wrongThread))
    ∧ (Present s id → ThreadFits s id excl me → ¬ Room s id excl →
        s.step me (.find id want excl) = some (s, .refused id (if excl then .unique else .shared)))
    ∧ (Present s id → ThreadFits s id excl me → Room s id excl → (want = none ∨ want = typeAt s id) →
        ∃ s' g, s.step me (.find id want excl) = some (s', .guard g) ∧ On s' id g ∧ typeAt s id = some g.ty ∧ g.excl = excl ∧ g.thr = me
          ∧ s'.guards = s.guards ++ [g] ∧ s'.map = s.map ∧ ∀ i, typeAt s' i = typeAt s i)
    ∧ (Present s id → ThreadFits s id excl me → Room s id excl → want ≠ none → want ≠ typeAt s id →
        s.step me (.find id want excl) = some (s, .panic)) := by
  have hv := reach_inv hr
  have hs : s.step me (.find id want excl) = some (s.find me id want excl) := by simp [St.step, hp]
  rw [hs]
  refine ⟨?_, ?_⟩
  · intro hn
    unfold St.find
    cases hl : look s.map id with
    | none => rfl
    | some a => exact absurd ⟨a, hl⟩ hn
  · by_cases hpr : Present s id
    · obtain ⟨a, hl⟩ := hpr
      have hf : s.find me id want excl = s.grab me a want excl id := by unfold St.find; rw [hl]
      rw [hf]
      obtain ⟨ty, hty, hc⟩ := grab_spec hv hl me want excl id
      rw [hty]
      rcases hc with ⟨h1, he⟩ | ⟨h1, h2, he⟩ | ⟨h1, h2, h3, s', he, h4, h5, h6⟩ | ⟨h1, h2, ⟨t, h3, h4⟩, he⟩
      · exact ⟨fun _ _ => by rw [he], fun _ h => absurd h h1, fun _ h => absurd h h1, fun _ h => absurd h h1⟩
      · exact ⟨fun _ h => absurd h1 h, fun _ _ _ => by rw [he], fun _ _ h => absurd h h2, fun _ _ h => absurd h h2⟩
      · refine ⟨fun _ h => absurd h1 h, fun _ _ h => absurd h2 h, fun _ _ _ _ => ?_, fun _ _ _ e1 e2 => ?_⟩
        · refine ⟨s', _, by rw [he], ⟨?_, ?_⟩, rfl, rfl, rfl, h4, h5, h6⟩
          · rw [h4]; simp
          · rw [h5]; exact hl
        · rcases h3 with h3 | h3
          · exact absurd h3 e1
          · exact absurd h3 e2
      · refine ⟨fun _ h => absurd h1 h, fun _ _ h => absurd h2 h, fun _ _ _ e => ?_, fun _ _ _ _ _ => by rw [he]⟩
        rcases e with e | e
        · rw [e] at h3; cases h3
        · rw [e] at h3
          cases h3
          exact absurd rfl h4
    · exact ⟨fun h => absurd h hpr, fun h => absurd h hpr, fun h => absurd h hpr, fun h => absurd h hpr⟩

/-- When nobody holds a guard, the thread of the world gets any storage that is present, by shared or exclusive borrow. -/
theorem C74_idle {std : Bool} {main : Nat} {h : List (Nat × Ev)} {s : St} (hr : Reach std main h s) (hp : s.poisoned = false)
    (hg : s.guards = []) (id : Id) (hid : Present s id) (excl : Bool) :
    ∃ s' g, s.step s.main (.find id (typeAt s id) excl) = some (s', .guard g) ∧ On s' id g ∧ g.excl = excl := by
  obtain ⟨_, _, _, h4, _⟩ := C74_find hr hp s.main id (typeAt s id) excl
  obtain ⟨s', g, e, h5, _, h6, _⟩ := h4 hid (fun _ _ _ _ _ _ => rfl)
    (fun a b _ _ => by rw [hg]; split <;> exact fun g hg => by cases hg) (.inr rfl)
  exact ⟨s', g, e, h5, h6⟩

/-- `custom_storage_or_insert*`, first step: a storage that is there is lent by the same rules; when there is none, only the thread
of the world goes on to make one whose values cannot be sent. -/
theorem C74_or_insert {std : Bool} {main : Nat} {h : List (Nat × Ev)} {s : St} (hr : Reach std main h s) (hp : s.poisoned = false)
    (me : Nat) (r : Req) :
    (¬ Present s r.id → (r.made = .nonSend ∨ r.made = .nonSendSync) → me ≠ s.main →
        s.step me (.orInsert r) = some (s, .refused (.of r.ty) .wrongThread))
    ∧ (¬ Present s r.id → ¬ ((r.made = .nonSend ∨ r.made = .nonSendSync) ∧ me ≠ s.main) →
        s.step me (.orInsert r) = some ({ s with waiting := s.waiting ++ [(me, r)] }, .wait))
    ∧ (Present s r.id → ¬ ThreadFits s r.id r.excl me → s.step me (.orInsert r) = some (s, .refused (.of r.ty) .wrongThread))
    ∧ (Present s r.id → ThreadFits s r.id r.excl me → ¬ Room s r.id r.excl →
        s.step me (.orInsert r) = some (s, .refused (.of r.ty) (if r.excl then .unique else .shared)))
    ∧ (Present s r.id → ThreadFits s r.id r.excl me → Room s r.id r.excl → typeAt s r.id = some r.ty →
        ∃ s' g, s.step me (.orInsert r) = some (s', .guard g) ∧ On s' r.id g ∧ g.ty = r.ty ∧ g.excl = r.excl ∧ g.thr = me
          ∧ s'.guards = s.guards ++ [g] ∧ s'.map = s.map) := by
  have hv := reach_inv hr
  have hs : s.step me (.orInsert r) = some (s.orInsert me r) := by simp [St.step, hp]
  rw [hs]
  have hck : (St.checksThread r.made && decide (me ≠ s.main)) = true ↔ ((r.made = .nonSend ∨ r.made = .nonSendSync) ∧ me ≠ s.main) := by
    cases r.made <;> simp [St.checksThread]
  by_cases hpr : Present s r.id
  · obtain ⟨a, hl⟩ := hpr
    have hf : s.orInsert me r = s.grab me a (some r.ty) r.excl (.of r.ty) := by unfold St.orInsert; rw [hl]
    rw [hf]
    obtain ⟨ty, hty, hc⟩ := grab_spec hv hl me (some r.ty) r.excl (.of r.ty)
    refine ⟨fun h => absurd ⟨a, hl⟩ h, fun h => absurd ⟨a, hl⟩ h, ?_⟩
    rw [hty]
    rcases hc with ⟨h1, he⟩ | ⟨h1, h2, he⟩ | ⟨h1, h2, h3, s', he, h4, h5, h6⟩ | ⟨h1, h2, ⟨t, h3, h4⟩, he⟩
    · exact ⟨fun _ _ => by rw [he], fun _ h => absurd h h1, fun _ h => absurd h h1⟩
    · exact ⟨fun _ h => absurd h1 h, fun _ _ _ => by rw [he], fun _ _ h => absurd h h2⟩
    · refine ⟨fun _ h => absurd h1 h, fun _ _ h => absurd h2 h, fun _ _ _ e => ?_⟩
      refine ⟨s', _, by rw [he], ⟨?_, ?_⟩, ?_, rfl, rfl, h4, h5⟩
      · rw [h4]; simp
      · rw [h5]; exact hl
      · cases e; rfl
    · refine ⟨fun _ h => absurd h1 h, fun _ _ h => absurd h2 h, fun _ _ _ e => ?_⟩
      cases h3
      cases e
      exact absurd rfl h4
  · have hl : look s.map r.id = none := by
      cases hl : look s.map r.id with
      | none => rfl
      | some a => exact absurd ⟨a, hl⟩ hpr
    refine ⟨fun _ h1 h2 => ?_, fun _ h1 => ?_, fun h => absurd h hpr, fun h => absurd h hpr, fun h => absurd h hpr⟩
    · unfold St.orInsert
      rw [hl]
      dsimp only
      rw [if_pos (hck.mpr ⟨h1, h2⟩)]
    · unfold St.orInsert
      rw [hl]
      dsimp only
      rw [if_neg (fun h => h1 (hck.mp h))]

/-- Second step: if another thread made the storage in between, the initialiser is not called and that storage is lent. Otherwise
the storage is made, put under the id and lent to the thread that made it. -/
theorem C74_insert {std : Bool} {main : Nat} {h : List (Nat × Ev)} {s : St} (hr : Reach std main h s) (hp : s.poisoned = false)
    {me i : Nat} {r : Req} (hw : s.waiting[i]? = some (me, r)) :
    (¬ Present s r.id → ∃ s' g, s.step me (.insert i true) = some (s', .guard g) ∧ On s' r.id g ∧ g.ty = r.ty ∧ g.excl = r.excl
        ∧ g.thr = me ∧ s'.created = s.created ++ [r.id] ∧ s'.guards = s.guards ++ [g] ∧ boundTo s' r.id = some (boundAs s.main r.made))
    ∧ (Present s r.id → ∀ ok, ∃ s' o, s.step me (.insert i ok) = some (s', o) ∧ s'.created = s.created ∧ s'.map = s.map
        ∧ (ThreadFits s r.id r.excl me → Room s r.id r.excl → typeAt s r.id = some r.ty →
            ∃ g, o = .guard g ∧ On s' r.id g ∧ g.ty = r.ty ∧ g.excl = r.excl ∧ g.thr = me ∧ s'.guards = s.guards ++ [g])) := by
  have hv := reach_inv hr
  have hs : ∀ ok, s.step me (.insert i ok) = some (({ s with waiting := s.waiting.eraseIdx i } : St).insert me r ok) := by
    intro ok
    simp [St.step, hw, hp]
  have h' : Inv { s with waiting := s.waiting.eraseIdx i } :=
    ⟨hv.keys, hv.vals, hv.live, hv.only, hv.fresh, hv.box, hv.guards, fun p hp => hv.waiting p (List.mem_of_mem_eraseIdx hp), hv.once⟩
  refine ⟨fun hn => ?_, fun hpr ok => ?_⟩
  · have hl : look s.map r.id = none := by
      cases hl : look s.map r.id with
      | none => rfl
      | some a => exact absurd ⟨a, hl⟩ hn
    rw [hs]
    unfold St.insert
    dsimp only
    rw [hl]
    simp only [if_true]
    have hb : (({ ({ s with waiting := s.waiting.eraseIdx i } : St).put r.id (Box.make r.made r.ty me) with
        created := s.created ++ [r.id] } : St)).heap s.next = some (Box.make r.made r.ty me) := set_same _ _ _
    have hok : ∃ b', (Box.make r.made r.ty me).take r.excl me = .ok b' := by
      obtain ⟨id, ty, made, excl⟩ := r
      cases made <;> cases excl <;> simp [Box.make, Box.take, Box.borrow, Box.borrowMut, Made.send, Made.isSync, Borrow.borrowEv, Borrow.borrowMutEv]
    obtain ⟨b', hb'⟩ := hok
    rcases grab_cases _ me s.next (some r.ty) r.excl (.of r.ty) hb with ⟨e, ht, _⟩ | ⟨b'', _, ⟨_, hg⟩ | ⟨⟨t, h1, h2⟩, _⟩⟩
    · rw [hb'] at ht; cases ht
    · have hl2 : look (s.map ++ [(r.id, s.next)]) r.id = some s.next := by rw [look_append hl]; simp
      refine ⟨_, _, congrArg some hg, ⟨?_, hl2⟩, rfl, rfl, rfl, rfl, rfl, ?_⟩
      · exact List.mem_append.mpr (.inr (.head _))
      · have hk := grab_kind ({ ({ s with waiting := s.waiting.eraseIdx i } : St).put r.id (Box.make r.made r.ty me) with
            created := s.created ++ [r.id] } : St) me s.next (some r.ty) r.excl (.of r.ty) s.next
        rw [hg, hb] at hk
        rw [boundTo_eq hl2, hk]
        show (some (Box.make r.made r.ty me).kind).map _ = _
        rw [make_bound (hv.waiting _ (List.mem_of_getElem? hw))]
        rfl
    · cases h1
      exact absurd rfl h2
  · obtain ⟨a, hl⟩ := hpr
    rw [hs]
    have hgs := grab_spec h' (id := r.id) hl me (some r.ty) r.excl (.of r.ty)
    have hk := grab_keeps { s with waiting := s.waiting.eraseIdx i } me a (some r.ty) r.excl (.of r.ty)
    unfold St.insert
    dsimp only
    rw [hl]
    dsimp only
    obtain ⟨ty, hty, hc⟩ := hgs
    replace hty : typeAt s r.id = some ty := hty
    rw [hty]
    rcases hc with ⟨h1, he⟩ | ⟨h1, h2, he⟩ | ⟨h1, h2, h3, s', he, h4, h5, h6⟩ | ⟨h1, h2, ⟨t, h3, h4⟩, he⟩
    · rw [he]
      exact ⟨_, _, rfl, rfl, rfl, fun h => absurd h h1⟩
    · rw [he]
      exact ⟨_, _, rfl, rfl, rfl, fun _ h => absurd h h2⟩
    · rw [he] at hk ⊢
      refine ⟨_, _, rfl, hk.2.2.2.1, h5, fun _ _ e => ?_⟩
      cases e
      refine ⟨_, rfl, ⟨?_, ?_⟩, rfl, rfl, rfl, h4⟩
      · rw [h4]; simp
      · rw [h5]; exact hl
    · rw [he]
      refine ⟨_, _, rfl, rfl, rfl, fun _ _ e => ?_⟩
      cases h3
      cases e
      exact absurd rfl h4

/-! ## One storage per id -/

/-- Whatever the interleaving, the initialisers given for an id are called at most once more often than the storage of that id was
taken out. -/
theorem C74_made {std : Bool} {main : Nat} {h : List (Nat × Ev)} {s : St} (hr : Reach std main h s) (id : Id) :
    s.created.count id ≤ s.dropped.count id + 1 := by
  have := (reach_inv hr).once id
  split at this <;> omega

theorem dropped_none {std : Bool} {main : Nat} {h : List (Nat × Ev)} {s : St} (hr : Reach std main h s) (id : Id)
    (hn : ∀ e ∈ h, ¬ TakesOut id e.2) : s.dropped.count id = 0 := by
  induction hr with
  | init => rfl
  | step _ _ hs ih =>
    rw [step_dropped hs (hn _ (List.mem_append.mpr (.inr (.head _))))]
    exact ih fun e he => hn e (List.mem_append.mpr (.inl he))

/-- If no unique storage is added or removed under the id, only one initialiser is ever called for it, by all the threads together. -/
theorem C74_made_once {std : Bool} {main : Nat} {h : List (Nat × Ev)} {s : St} (hr : Reach std main h s) (id : Id)
    (hn : ∀ e ∈ h, ¬ TakesOut id e.2) : s.created.count id ≤ 1 := by
  have := C74_made hr id
  rw [dropped_none hr id hn] at this
  exact this

/-- A storage stays under its id, the same storage, of the same type and for the same threads, until a call for a unique under this
id takes it out. -/
theorem C74_stays {std : Bool} {main : Nat} {h : List (Nat × Ev)} {s s' : St} (hr : Reach std main h s) {me : Nat} {ev : Ev} {o : Out}
    (hs : s.step me ev = some (s', o)) {id : Id} (hid : Present s id) (hev : ¬ TakesOut id ev) :
    look s'.map id = look s.map id ∧ typeAt s' id = typeAt s id ∧ boundTo s' id = boundTo s id := by
  obtain ⟨a, ha⟩ := hid
  have h1 : look s'.map id = look s.map id := step_look hs hev (by rw [ha]; exact fun e => by cases e)
  have hk := step_kind (reach_inv hr) hs hev ha
  have ha' := h1.trans ha
  refine ⟨h1, ?_, ?_⟩
  · rw [typeAt_kind ha', typeAt_kind ha, hk]
  · rw [boundTo_eq ha', boundTo_eq ha, hk]

/-- `remove_unique` takes out the storage when nobody has a guard on it (and, for a value that cannot be sent, on the thread of the
world); otherwise it is refused and nothing changes. -/
theorem C74_remove {std : Bool} {main : Nat} {h : List (Nat × Ev)} {s : St} (hr : Reach std main h s) (hp : s.poisoned = false)
    (me t : Nat) :
    (¬ Present s (uniqueId t) → s.step me (.removeUnique t) = some (s, .missing))
    ∧ (Present s (uniqueId t) → ¬ ThreadFits s (uniqueId t) true me →
        s.step me (.removeUnique t) = some (s, .refused (uniqueId t) .wrongThread))
    ∧ (Present s (uniqueId t) → ThreadFits s (uniqueId t) true me → (∃ g, On s (uniqueId t) g) →
        s.step me (.removeUnique t) = some (s, .refused (uniqueId t) .unique))
    ∧ (Present s (uniqueId t) → ThreadFits s (uniqueId t) true me → (¬ ∃ g, On s (uniqueId t) g) →
        ∃ s' ty, s.step me (.removeUnique t) = some (s', .removed ty) ∧ typeAt s (uniqueId t) = some ty ∧ ¬ Present s' (uniqueId t)
          ∧ s'.guards = s.guards ∧ ∀ id, id ≠ uniqueId t → look s'.map id = look s.map id) := by
  have hv := reach_inv hr
  have hs : s.step me (.removeUnique t) = some (s.removeUnique me t) := by simp [St.step, hp]
  rw [hs]
  refine ⟨?_, ?_⟩
  · intro hn
    unfold St.removeUnique
    cases hl : look s.map (uniqueId t) with
    | none => rfl
    | some a => exact absurd ⟨a, hl⟩ hn
  · by_cases hpr : Present s (uniqueId t)
    · obtain ⟨a, hl⟩ := hpr
      obtain ⟨b, hb⟩ := hv.boxAt hl
      have hroom : Room s (uniqueId t) true ↔ ¬ ∃ g, On s (uniqueId t) g := by
        constructor
        · intro hr ⟨g, hg, hgl⟩
          rw [hl] at hgl
          cases hgl
          have := hr _ b hl hb
          simp at this
          exact this g hg rfl
        · intro hn x y hx _
          simp only [true_or, if_true]
          rw [hl] at hx
          cases hx
          intro g hg e
          exact hn ⟨g, hg, by rw [e]; exact hl⟩
      unfold St.removeUnique
      rw [hl]
      dsimp only
      rw [hb]
      dsimp only
      rcases take_spec hv hl hb true me with ⟨h1, h2⟩ | ⟨h1, h2, h3⟩ | ⟨h1, h2, b', h3⟩
      · replace h2 : b.borrowMut me = _ := h2
        rw [h2]
        exact ⟨fun _ _ => rfl, fun _ h => absurd h h1, fun _ h => absurd h h1⟩
      · replace h3 : b.borrowMut me = _ := h3
        rw [h3]
        exact ⟨fun _ h => absurd h1 h, fun _ _ _ => rfl, fun _ _ h => absurd (hroom.mpr h) h2⟩
      · replace h3 : b.borrowMut me = _ := h3
        rw [h3]
        refine ⟨fun _ h => absurd h1 h, fun _ _ h => absurd h (hroom.mp h2), fun _ _ _ => ?_⟩
        refine ⟨_, _, rfl, typeAt_eq hl hb, ?_, rfl, ?_⟩
        · rintro ⟨x, hx⟩
          replace hx : look (s.map.filter fun p => decide (p.1 ≠ uniqueId t)) (uniqueId t) = some x := hx
          rw [look_filter] at hx
          simp at hx
        · intro id hne
          show look (s.map.filter fun p => decide (p.1 ≠ uniqueId t)) id = _
          rw [look_filter, if_neg (fun e => hne e.symm)]
    · exact ⟨fun h => absurd h hpr, fun h => absurd h hpr, fun h => absurd h hpr⟩

/-- `add_unique` puts a fresh storage under the id of the unique, with no guard on it, in place of the one that was there; the
storages under other ids stay. -/
theorem C74_add {std : Bool} {main : Nat} {h : List (Nat × Ev)} {s : St} (hr : Reach std main h s) (hp : s.poisoned = false)
    (me t : Nat) :
    ∃ s', s.step me (.addUnique t true) = some (s', .done) ∧ typeAt s' (uniqueId t) = some ⟨.new, .unique t⟩
      ∧ boundTo s' (uniqueId t) = some (boundAs s.main .new)
      ∧ (¬ ∃ g, On s' (uniqueId t) g) ∧ look s'.map (uniqueId t) ≠ look s.map (uniqueId t) ∧ s'.guards = s.guards
      ∧ ∀ id, id ≠ uniqueId t → look s'.map id = look s.map id := by
  have hv := reach_inv hr
  have hs : s.step me (.addUnique t true) = some (s.addUnique me t true) := by simp [St.step, hp]
  rw [hs]
  have hng : ∀ g ∈ s.guards, g.box ≠ s.next := by
    intro g hg e
    obtain ⟨b, hb⟩ := hv.guards g hg
    rw [e, hv.fresh _ (Nat.le_refl _)] at hb
    cases hb
  cases hl : look s.map (uniqueId t) with
  | none =>
    have he : s.addUnique me t true = (s.put (uniqueId t) (Box.make .new ⟨.new, .unique t⟩ me), .done) := by
      unfold St.addUnique; dsimp only; rw [hl]
    rw [he]
    have hl2 : look (s.map ++ [(uniqueId t, s.next)]) (uniqueId t) = some s.next := by rw [look_append hl]; simp
    refine ⟨_, rfl, typeAt_eq (b := Box.make .new ⟨.new, .unique t⟩ me) hl2 (set_same _ _ _),
      boundTo_box (b := Box.make .new ⟨.new, .unique t⟩ me) hl2 (set_same _ _ _), ?_, ?_, rfl, ?_⟩
    · rintro ⟨g, hg, hg2⟩
      replace hg2 : look (s.map ++ [(uniqueId t, s.next)]) (uniqueId t) = some g.box := hg2
      rw [hl2] at hg2
      exact hng g hg (Option.some.inj hg2).symm
    · show look (s.map ++ [(uniqueId t, s.next)]) (uniqueId t) ≠ none
      rw [hl2]; exact fun e => by cases e
    · intro id hne
      show look (s.map ++ [(uniqueId t, s.next)]) id = _
      rw [look_append hl, if_neg (fun e => hne e.symm)]
  | some a =>
    have he : s.addUnique me t true = ((s.take (uniqueId t) a).put (uniqueId t) (Box.make .new ⟨.new, .unique t⟩ me), .done) := by
      unfold St.addUnique; dsimp only; rw [hl]; simp
    rw [he]
    have hl1 : look (s.map.filter fun p => decide (p.1 ≠ uniqueId t)) (uniqueId t) = none := by rw [look_filter]; simp
    have hl2 : look ((s.map.filter fun p => decide (p.1 ≠ uniqueId t)) ++ [(uniqueId t, s.next)]) (uniqueId t) = some s.next := by
      rw [look_append hl1]; simp
    refine ⟨_, rfl, typeAt_eq (b := Box.make .new ⟨.new, .unique t⟩ me) hl2 (set_same _ _ _),
      boundTo_box (b := Box.make .new ⟨.new, .unique t⟩ me) hl2 (set_same _ _ _), ?_, ?_, rfl, ?_⟩
    · rintro ⟨g, hg, hg2⟩
      replace hg2 : look ((s.map.filter fun p => decide (p.1 ≠ uniqueId t)) ++ [(uniqueId t, s.next)]) (uniqueId t) = some g.box := hg2
      rw [hl2] at hg2
      exact hng g hg (Option.some.inj hg2).symm
    · show look ((s.map.filter fun p => decide (p.1 ≠ uniqueId t)) ++ [(uniqueId t, s.next)]) (uniqueId t) ≠ some a
      rw [hl2]
      intro e
      obtain ⟨b, hb⟩ := hv.boxAt hl
      rw [← Option.some.inj e, hv.fresh _ (Nat.le_refl _)] at hb
      cases hb
    · intro id hne
      show look ((s.map.filter fun p => decide (p.1 ≠ uniqueId t)) ++ [(uniqueId t, s.next)]) id = _
      rw [look_append hl1, if_neg (fun e => hne e.symm), look_filter, if_neg (fun e => hne e.symm)]

/-- `add_unique_non_send`, `_non_sync` and `_non_send_sync`, on the thread of the world and with nothing under the id: the unique is
there afterwards, with this wrapper. -/
theorem C74_add_local {s : St} (hp : s.poisoned = false) (m : Made) (t : Nat) (hn : ¬ Present s (uniqueId t)) :
    ∃ s', s.step s.main (.addUniqueLocal m t) = some (s', .done) ∧ typeAt s' (uniqueId t) = some ⟨m, .unique t⟩
      ∧ boundTo s' (uniqueId t) = some (boundAs s.main m)
      ∧ s'.guards = s.guards ∧ ∀ id, id ≠ uniqueId t → look s'.map id = look s.map id := by
  have hl : look s.map (uniqueId t) = none := by
    cases hl : look s.map (uniqueId t) with
    | none => rfl
    | some a => exact absurd ⟨a, hl⟩ hn
  have hs : s.step s.main (.addUniqueLocal m t) = some (s.put (uniqueId t) (Box.make m ⟨m, .unique t⟩ s.main), .done) := by
    simp [St.step, hp, St.addUniqueLocal, hl]
  rw [hs]
  have hl2 : look (s.map ++ [(uniqueId t, s.next)]) (uniqueId t) = some s.next := by rw [look_append hl]; simp
  refine ⟨_, rfl, typeAt_eq (b := Box.make m ⟨m, .unique t⟩ s.main) hl2 (set_same _ _ _), ?_, rfl, ?_⟩
  · refine (boundTo_box (b := Box.make m ⟨m, .unique t⟩ s.main) hl2 (set_same _ _ _)).trans ?_
    rw [make_bound (fun _ => rfl)]
  intro id hne
  show look (s.map ++ [(uniqueId t, s.next)]) id = _
  rw [look_append hl, if_neg (fun e => hne e.symm)]

/-! ## Listing -/

/-- `iter_storages` and `iter_storages_mut` yield a guard on each storage that can be borrowed, once, and nothing else. -/
theorem C74_list {std : Bool} {main : Nat} {h : List (Nat × Ev)} {s : St} (hr : Reach std main h s) (hp : s.poisoned = false)
    (me : Nat) (excl : Bool) :
    ∃ s' gs, s.step me (.list excl) = some (s', .listed gs) ∧ s'.guards = s.guards ++ gs ∧ s'.map = s.map
      ∧ (gs.map (·.box)).Nodup ∧ (∀ g ∈ gs, g.excl = excl ∧ g.thr = me)
      ∧ (∀ id, (∃ g ∈ gs, look s.map id = some g.box) ↔ Present s id ∧ ThreadFits s id excl me ∧ Room s id excl)
      ∧ ∀ g ∈ gs, ∃ id, look s.map id = some g.box := by
  have hv := reach_inv hr
  obtain ⟨new, h1, h2, h3, h4⟩ := listLoop_spec me excl s.map s [] hv.vals hv.live
  have hmem : ∀ a, a ∈ new.map (·.box) ↔ ∃ id, (id, a) ∈ s.map ∧ lendable s me excl (id, a) = true := by
    intro a
    rw [h4, List.mem_map]
    constructor
    · rintro ⟨⟨id, x⟩, hp, rfl⟩
      rw [List.mem_filter] at hp
      exact ⟨id, hp⟩
    · rintro ⟨id, h5, h6⟩
      exact ⟨(id, a), List.mem_filter.mpr ⟨h5, h6⟩, rfl⟩
  have hlend : ∀ id a, look s.map id = some a → (lendable s me excl (id, a) = true ↔ ThreadFits s id excl me ∧ Room s id excl) := by
    intro id a hl
    obtain ⟨b, hb⟩ := hv.boxAt hl
    unfold lendable
    dsimp only
    rw [hb]
    dsimp only
    rcases take_spec hv hl hb excl me with ⟨e1, e2⟩ | ⟨e1, e2, e3⟩ | ⟨e1, e2, b', e3⟩
    · rw [e2]; simp [e1]
    · rw [e3]; simp [e2]
    · rw [e3]; simp [e1, e2]
  refine ⟨_, (St.listLoop me excl s.map s []).2, ?_, ?_, (listLoop_keeps me excl s.map s []).1, ?_, ?_, ?_, ?_⟩
  · simp [St.step, hp, St.list]
  · rw [h2, h1]; rfl
  · rw [h1, List.nil_append, h4]
    exact (List.filter_sublist.map _).nodup hv.vals
  · rw [h1]; exact h3
  · intro id
    rw [h1, List.nil_append]
    constructor
    · rintro ⟨g, hg, hl⟩
      obtain ⟨id', hm, hlen⟩ := (hmem g.box).mp (List.mem_map.mpr ⟨g, hg, rfl⟩)
      have hl' := look_of_mem hv.keys hm
      refine ⟨⟨_, hl⟩, ?_⟩
      unfold lendable at hlen
      exact (hlend id g.box hl).mp hlen
    · rintro ⟨⟨a, hl⟩, hf, hro⟩
      obtain ⟨g, hg, e⟩ := List.mem_map.mp ((hmem a).mpr ⟨id, look_mem hl, (hlend id a hl).mpr ⟨hf, hro⟩⟩)
      refine ⟨g, hg, ?_⟩
      rw [hl]
      exact congrArg some e.symm
  · rw [h1, List.nil_append]
    intro g hg
    obtain ⟨id', hm, _⟩ := (hmem g.box).mp (List.mem_map.mpr ⟨g, hg, rfl⟩)
    exact ⟨id', look_of_mem hv.keys hm⟩

/-- When nobody holds a guard, the thread of the world is given every storage. -/
theorem C74_list_all {std : Bool} {main : Nat} {h : List (Nat × Ev)} {s : St} (hr : Reach std main h s) (hp : s.poisoned = false)
    (hg : s.guards = []) (excl : Bool) :
    ∃ s' gs, s.step s.main (.list excl) = some (s', .listed gs) ∧ ∀ id, Present s id → ∃ g ∈ gs, look s.map id = some g.box := by
  obtain ⟨s', gs, h1, _, _, _, _, h2, _⟩ := C74_list hr hp s.main excl
  refine ⟨s', gs, h1, fun id hid => (h2 id).mpr ⟨hid, fun _ _ _ _ _ _ => rfl, ?_⟩⟩
  intro a b _ _
  rw [hg]
  split <;> exact fun g hg => by cases hg

/-! ## Panics -/

/-- If every id is used with one type of storage only, no initialiser panics and no destructor panics, then no call panics. The
full claim, that no call made by safe code panics, fails: see below. -/
theorem C74_quiet_partial {τ : Id → Ty} {std : Bool} {main : Nat} {h : List (Nat × Ev)} {s : St}
    (hτ : τ (.of ⟨.new, .entities⟩) = ⟨.new, .entities⟩) (hr : TypedReach τ std main h s) {me : Nat} {ev : Ev} (hp : Polite s ev)
    (ht : Typed τ ev) {s' : St} {o : Out} (hs : s.step me ev = some (s', o)) : o ≠ .panic :=
  (step_tinv (typed_tinv hτ hr) hp ht hs).2

/-- With a lock other than the one of the standard library, no panic makes later calls panic. -/
theorem C74_custom_lock {main : Nat} {h : List (Nat × Ev)} {s : St} (hr : Reach false main h s) : s.poisoned = false := by
  have : s.std = false ∧ s.poisoned = false := by
    induction hr with
    | init => exact ⟨rfl, rfl⟩
    | step _ _ hs ih =>
      obtain ⟨h1, _, h3⟩ := step_poison hs
      refine ⟨h1.trans ih.1, ?_⟩
      cases hp : (_ : St).poisoned with
      | false => rfl
      | true =>
        rcases h3 hp with h | h
        · rw [ih.2] at h; cases h
        · rw [ih.1] at h; cases h
  exact this.2

/-- Once the lock is poisoned, it is so for good: whatever the threads do, every call that looks for a storage panics. -/
theorem C74_poisoned {s s' : St} (hp : s.poisoned = true) (hl : Later s s') (me : Nat) :
    (∀ id want excl, s'.step me (.find id want excl) = some (s', .panic)) ∧ (∀ r, s'.step me (.orInsert r) = some (s', .panic))
    ∧ (∀ t quiet, s'.step me (.addUnique t quiet) = some (s', .panic)) ∧ (∀ t, s'.step me (.removeUnique t) = some (s', .panic))
    ∧ ∀ excl, s'.step me (.list excl) = some (s', .panic) := by
  have hp' : s'.poisoned = true := by
    induction hl with
    | refl => exact hp
    | step _ h ih => exact (step_poison h).2.1 ih
  refine ⟨?_, ?_, ?_, ?_, ?_⟩ <;> intros <;> simp [St.step, hp']

/-! ## Cases that meet the hypotheses -/

instance (s : St) : (ev : Ev) → Decidable (Polite s ev)
  | .addUnique t _ =>
    match h : look s.map (uniqueId t) with
    | none => .isTrue (fun a e => by rw [h] at e; cases e)
    | some a =>
      if hg : ∀ g ∈ s.guards, g.box ≠ a then .isTrue (fun a' e => by rw [h] at e; cases e; exact hg)
      else .isFalse (fun e => hg (e a h))
  | .find .. | .orInsert .. | .insert .. | .addUniqueLocal .. | .removeUnique .. | .drop .. | .list .. => .isTrue trivial

/-- Carry out a history. -/
def play (s : St) : List (Nat × Ev) → Option St
  | [] => some s
  | (me, ev) :: rest => if Polite s ev then (s.step me ev).bind fun r => play r.1 rest else none

theorem play_reach {std : Bool} {main : Nat} : ∀ (h : List (Nat × Ev)) {h0 : List (Nat × Ev)} {s0 s : St}, Reach std main h0 s0 →
    play s0 h = some s → Reach std main (h0 ++ h) s
  | [], h0, s0, s, hr, hp => by cases hp; rw [List.append_nil]; exact hr
  | (me, ev) :: rest, h0, s0, s, hr, hp => by
    unfold play at hp
    split at hp
    · next hpol =>
      cases hs : s0.step me ev with
      | none => rw [hs] at hp; cases hp
      | some r =>
        obtain ⟨s1, o⟩ := r
        rw [hs] at hp
        have := play_reach rest (.step hr hpol hs) hp
        rw [List.append_assoc] at this
        exact this
    · cases hp

theorem played {std : Bool} {main : Nat} {h : List (Nat × Ev)} {s : St} (hp : play (St.init std main) h = some s) : Reach std main h s :=
  play_reach h .init hp

/-- The id of the components of type `t`. -/
def compId (t : Nat) : Id := .of ⟨.new, .set t⟩
def compReq (t : Nat) (excl : Bool) : Req := ⟨compId t, ⟨.new, .set t⟩, .new, excl⟩

/-- Two threads ask for the same missing storage; both wait for the write lock; the first makes it, the second finds it. -/
theorem twoThreads : ∃ s, Reach true 0 [(1, .orInsert (compReq 5 false)), (2, .orInsert (compReq 5 false)), (2, .insert 1 true),
    (1, .insert 0 true)] s ∧ s.created = [compId 5] ∧ s.guards.length = 2 ∧ s.poisoned = false ∧ Present s (compId 5) :=
  ⟨_, played rfl, rfl, rfl, rfl, 1, rfl⟩

/-- The same with exclusive borrows: the second thread is refused. -/
example : ∃ s s', Reach true 0 [(1, .orInsert (compReq 5 true)), (2, .orInsert (compReq 5 true)), (2, .insert 1 true)] s
    ∧ s.step 1 (.insert 0 true) = some (s', .refused (compId 5) .unique) :=
  ⟨_, _, played rfl, rfl⟩

/-- A unique that cannot be sent nor shared: the thread of the world borrows it, another thread cannot. -/
example : ∃ s s' g, Reach true 0 [(0, .addUniqueLocal .nonSendSync 3)] s ∧ Present s (uniqueId 3)
    ∧ s.step 0 (.find (uniqueId 3) none false) = some (s', .guard g)
    ∧ s.step 1 (.find (uniqueId 3) none false) = some (s, .refused (uniqueId 3) .wrongThread) :=
  ⟨_, _, _, played rfl, ⟨1, rfl⟩, rfl, rfl⟩

/-- A typed history with a unique that is added, replaced, viewed and removed. -/
example : ∃ s, TypedReach (fun id => match id with | .of t => t | .custom _ => ⟨.new, .entities⟩) true 0
    ((((([] ++ [(0, .addUnique 3 true)]) ++ [(0, .addUnique 3 true)]) ++ [(1, .find (uniqueId 3) (some ⟨.new, .unique 3⟩) true)])
      ++ [(1, .drop 0)]) ++ [(1, .removeUnique 3)]) s ∧ s.dropped = [uniqueId 3, uniqueId 3] :=
  ⟨_, .step (.step (.step (.step (.step .init (fun a h => by cases h) ⟨rfl, rfl⟩ rfl) (fun _ _ g h => by cases h) ⟨rfl, rfl⟩ rfl)
    trivial rfl rfl) trivial trivial rfl) trivial trivial rfl, rfl⟩

/-! ## What fails -/

/-- Claim: a panic in an initialiser only ends the call it was given to. It does not: with the standard lock, every later call of
every thread panics, whatever happens in between. -/
theorem C74_initialiser_fails :
    ∃ s, Reach true 0 [(1, .orInsert (compReq 5 false)), (1, .insert 0 false)] s
      ∧ ∀ s', Later s s' → ∀ me id want excl, s'.step me (.find id want excl) = some (s', .panic) :=
  ⟨_, played rfl, fun _ h me => (C74_poisoned rfl h me).1⟩

/-- The same when the destructor of the unique that `add_unique` replaces panics; the new value is in the map all the same. -/
theorem C74_destructor_fails :
    ∃ s, Reach true 0 [(0, .addUnique 3 true), (0, .addUnique 3 false)] s ∧ Present s (uniqueId 3)
      ∧ ∀ s', Later s s' → ∀ me id want excl, s'.step me (.find id want excl) = some (s', .panic) :=
  ⟨_, played rfl, ⟨2, rfl⟩,
    fun _ h me => (C74_poisoned rfl h me).1⟩

/-- Claim: viewing a unique in the wrong way gives an error. A unique added with `add_unique` and viewed through `NonSend` panics. -/
theorem C74_kind_fails :
    ∃ s, Reach true 0 [(0, .addUnique 3 true)] s
      ∧ s.step 0 (.find (uniqueId 3) (some ⟨.nonSend, .unique 3⟩) false) = some (s, .panic) :=
  ⟨_, played rfl, rfl⟩

/-- Claim: after `add_unique_non_send` returns, the unique is there. Called from another thread it returns and adds nothing. -/
theorem C74_off_thread_fails : ∃ s s', Reach true 0 [] s ∧ s.step 1 (.addUniqueLocal .nonSend 3) = some (s', .done) ∧ ¬ Present s' (uniqueId 3) := by
  refine ⟨_, _, .init, rfl, ?_⟩
  rintro ⟨a, ha⟩
  cases ha

/-- Claim: `add_unique_non_sync` replaces the unique that is there, as `add_unique` does. It keeps it and drops the new value. -/
theorem C74_keeps_old_fails : ∃ s, Reach true 0 [(0, .addUnique 3 true)] s ∧ s.step 0 (.addUniqueLocal .nonSync 3) = some (s, .done)
    ∧ typeAt s (uniqueId 3) = some ⟨.new, .unique 3⟩ :=
  ⟨_, played rfl, rfl, rfl⟩

/-- Claim: `iter_storages` lists all the storages. One that is borrowed exclusively is left out. -/
theorem C74_list_fails : ∃ s s' gs, Reach true 0 [(0, .addUnique 3 true), (0, .find (uniqueId 3) none true)] s
    ∧ s.step 0 (.list false) = some (s', .listed gs) ∧ Present s (uniqueId 3) ∧ ∀ g ∈ gs, look s.map (uniqueId 3) ≠ some g.box := by
  refine ⟨_, _, _, played rfl, rfl, ⟨1, rfl⟩, ?_⟩
  intro g hg
  rcases List.mem_cons.mp hg with rfl | hg
  · exact fun e => by cases e
  · cases hg

/-- Claim: the error names the id that was asked for. `custom_storage_or_insert_by_id` names the id of the type. -/
theorem C74_error_id_fails :
    ∃ s, Reach true 0 [(0, .orInsert ⟨.custom 7, ⟨.new, .user 1⟩, .new, true⟩), (0, .insert 0 true)] s
      ∧ s.step 1 (.orInsert ⟨.custom 7, ⟨.new, .user 1⟩, .new, false⟩) = some (s, .refused (.of ⟨.new, .user 1⟩) .shared)
      ∧ ¬ Present s (.of ⟨.new, .user 1⟩) := by
  refine ⟨_, played rfl, rfl, ?_⟩
  rintro ⟨a, ha⟩
  cases ha

end Verif.StorageMap
