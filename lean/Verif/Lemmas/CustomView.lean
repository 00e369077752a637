import Verif.Spec.CustomView
import Verif.Lemmas.Lend

/-!
# Custom views: proofs
-/
namespace Verif.Custom
open Borrow

theorem attr_default {a : Attr} (h : (∃ m ∈ a, m.key = .default) → ∀ m ∈ a, m.value = none) :
    a.isDefault = a.any fun m => m.key = .default := by
  cases hb : a.any fun m => decide (m.key = .default) with
  | false =>
    clear h
    induction a with
    | nil => rfl
    | cons m ms ih =>
      simp only [List.any_cons, Bool.or_eq_false_iff, decide_eq_false_iff_not] at hb
      rw [Attr.isDefault, if_neg hb.1]
      split
      · rfl
      · exact ih hb.2
  | true =>
    have hv := h (by
      rw [List.any_eq_true] at hb
      obtain ⟨m, hm, hk⟩ := hb
      exact ⟨m, hm, by simpa using hk⟩)
    clear h
    induction a with
    | nil => simp at hb
    | cons m ms ih =>
      rw [Attr.isDefault]
      by_cases hm : m.key = .default
      · rw [if_pos hm]
      · rw [if_neg hm, if_neg (by rw [hv m (by simp)]; simp)]
        simp only [List.any_cons, Bool.or_eq_true, decide_eq_true_eq, hm, false_or] at hb
        exact ih hb (fun m' hm' => hv m' (by simp [hm']))

theorem isDefault_marked {attrs : List Attr} (h : Clear attrs) : isDefault attrs = marked attrs := by
  unfold isDefault marked
  induction attrs with
  | nil => rfl
  | cons a as ih =>
    rw [List.any_cons, List.any_cons, attr_default (h a (by simp)), ih (fun b hb => h b (by simp [hb]))]

mutual
theorem dropHeld_views (v : Held) (st : Cells) : dropHeld st v = st.dropView v.views := by
  match v with
  | .unit => rw [dropHeld, Held.views, Cells.dropView]
  | .view s x all => rw [dropHeld, Held.views, Cells.dropView]
  | .opt none => rw [dropHeld, Held.views, Cells.dropView]
  | .opt (some v) => rw [dropHeld, Held.views, Cells.dropView]; exact dropHeld_views v st
  | .tuple vs => rw [dropHeld, Held.views, Cells.dropView]; exact dropHelds_views vs st
  | .struct vs => rw [dropHeld, Held.views, Cells.dropView]; exact dropHelds_views vs st
  | .dflt => rw [dropHeld, Held.views, Cells.dropView]
theorem dropHelds_views (vs : List Held) (st : Cells) : dropHelds st vs = st.dropViews (Held.viewsAll vs) := by
  match vs with
  | [] => rw [dropHelds, Held.viewsAll, Cells.dropViews]
  | v :: vs =>
    rw [dropHelds, Held.viewsAll]
    split
    · rename_i hd
      cases v <;> first | (cases hd; done) | skip
      rw [dropHeld]
      exact dropHelds_views vs st
    · rw [Cells.dropViews, dropHeld_views v st]
      congr
      funext st'
      exact dropHelds_views vs st'
end

theorem Fills.notDflt {t : Ty} {v : Held} (h : Fills t v) : v.isDflt = false := by
  cases v <;> first | rfl | skip
  cases t <;> simp [Fills] at h

/-- The results of the generated code and of the tuple. -/
def look (r : Res (Cells × Option Held)) : Res (Cells × Option View) := r.map fun p => (p.1, p.2.map Held.views)
def lookAll (r : Res (Cells × Option (List Held))) : Res (Cells × Option (List View)) := r.map fun p => (p.1, p.2.map Held.viewsAll)

theorem thenEach_look {v : Held} (hv : v.isDflt = false) (r : Res (Cells × Option (List Held))) :
    lookAll (thenEach v r) = (lookAll r).bind fun (st, vs) =>
      match vs with
      | none => (st.dropView v.views).map (·, none)
      | some vs => .ok (st, some (v.views :: vs)) := by
  cases r with
  | error e => rfl
  | ok p =>
    obtain ⟨st, vs⟩ := p
    cases vs with
    | some vs =>
      show Except.ok (st, some (Held.viewsAll (v :: vs))) = _
      rw [Held.viewsAll, if_neg (by rw [hv]; simp)]
      rfl
    | none =>
      show lookAll ((dropHeld st v).map (·, none)) = (st.dropView v.views).map (·, none)
      rw [dropHeld_views]
      cases st.dropView v.views <;> rfl

theorem thenEach_dflt (r : Res (Cells × Option (List Held))) : lookAll (thenEach .dflt r) = lookAll r := by
  cases r with
  | error e => rfl
  | ok p =>
    obtain ⟨st, vs⟩ := p
    cases vs with
    | some vs => rfl
    | none => rfl

theorem thenEach_some {v : Held} {r : Res (Cells × Option (List Held))} {st : Cells} {vs : List Held}
    (h : thenEach v r = .ok (st, some vs)) : ∃ vs', r = .ok (st, some vs') ∧ vs = v :: vs' := by
  cases r with
  | error e => cases h
  | ok p =>
    obtain ⟨st1, o⟩ := p
    cases o with
    | some vs' => cases h; exact ⟨vs', rfl, rfl⟩
    | none =>
      simp only [thenEach, Except.bind] at h
      cases hd : dropHeld st1 v with
      | error e => rw [hd] at h; cases h
      | ok st2 => rw [hd] at h; cases h

mutual
theorem borrowTy_look (t : Ty) (ht : t.Ok) (st : Cells) (all : Bool) :
    look (borrowTy st all t) = st.borrow all t.req ∧ ∀ st' v, borrowTy st all t = .ok (st', some v) → Fills t v := by
  match t with
  | .unit =>
    rw [borrowTy, Ty.req, Cells.borrow]
    cases st.dropAll all with
    | error e => exact ⟨rfl, fun _ _ h => by cases h⟩
    | ok st1 => exact ⟨rfl, fun _ _ h => by cases h; simp [Fills]⟩
  | .view s x create trackOk kind =>
    rw [borrowTy, Ty.req, Cells.borrow]
    cases hb : st.borrowView s x create trackOk all with
    | error e => exact ⟨rfl, fun _ _ h => by cases h⟩
    | ok p =>
      obtain ⟨st1, o⟩ := p
      refine ⟨?_, fun st' v h => ?_⟩
      · cases o with
        | none => rfl
        | some v =>
          have : v = .view s x all := by
            unfold Cells.borrowView at hb
            dsimp only at hb
            generalize (if create = true then st.create s else st) = q at hb
            split at hb
            · cases hd : q.dropAll all with
              | error e => rw [hd] at hb; cases hb
              | ok _ => rw [hd] at hb; cases hb
            · cases hg : q.guard s x with
              | error e => rw [hg] at hb; cases hb
              | ok q' =>
                obtain ⟨st2, got⟩ := q'
                rw [hg] at hb
                simp only [Except.bind] at hb
                split at hb
                · cases hd : st2.dropAll all with
                  | error e => rw [hd] at hb; cases hb
                  | ok _ => rw [hd] at hb; cases hb
                · split at hb
                  · cases hd : st2.dropGuard s x with
                    | error e => rw [hd] at hb; cases hb
                    | ok st3 =>
                      rw [hd] at hb
                      cases hd : st3.dropAll all with
                      | error e => simp only [hd] at hb; cases hb
                      | ok _ => simp only [hd] at hb; cases hb
                  · cases hb; rfl
          subst this
          simp [look, Except.map, Held.views]
      · cases o with
        | none => cases h
        | some v' => cases h; simp [Fills]
  | .opt t =>
    rw [Ty.Ok] at ht
    obtain ⟨h1, h2⟩ := borrowTy_look t ht st all
    rw [borrowTy, Ty.req, Cells.borrow, ← h1]
    cases hb : borrowTy st all t with
    | error e => exact ⟨rfl, fun _ _ h => by cases h⟩
    | ok p =>
      obtain ⟨st1, o⟩ := p
      refine ⟨?_, fun st' v h => ?_⟩
      · cases o <;> simp [look, Except.map, Held.views]
      · cases h
        cases o with
        | none => simp [Fills]
        | some v => rw [Fills]; exact h2 _ _ hb
  | .tuple ts =>
    rw [Ty.Ok] at ht
    obtain ⟨h1, h2⟩ := borrowTys_look ts ht st all
    rw [borrowTy, Ty.req, Cells.borrow, ← h1]
    cases hb : borrowTys st all ts with
    | error e => exact ⟨rfl, fun _ _ h => by cases h⟩
    | ok p =>
      obtain ⟨st1, o⟩ := p
      simp only [lookAll, Except.map, Except.bind]
      cases hd : st1.dropAll all with
      | error e => exact ⟨rfl, fun _ _ h => by cases h⟩
      | ok st2 =>
        refine ⟨?_, fun st' v h => ?_⟩
        · cases o <;> simp [look, Except.map, Held.views]
        · cases o with
          | none => cases h
          | some v => cases h; rw [Fills]; exact h2 _ _ hb
  | .named fs =>
    rw [Ty.Ok] at ht
    obtain ⟨h1, h2⟩ := borrowFields_look fs ht st all
    rw [borrowTy, Ty.req, Cells.borrow, ← h1]
    cases hb : borrowFields st all fs with
    | error e => exact ⟨rfl, fun _ _ h => by cases h⟩
    | ok p =>
      obtain ⟨st1, o⟩ := p
      simp only [lookAll, Except.map, Except.bind]
      cases hd : st1.dropAll all with
      | error e => exact ⟨rfl, fun _ _ h => by cases h⟩
      | ok st2 =>
        refine ⟨?_, fun st' v h => ?_⟩
        · cases o <;> simp [look, Except.map, Held.views]
        · cases o with
          | none => cases h
          | some v => cases h; rw [Fills]; exact h2 _ _ hb
  | .unnamed ts =>
    rw [Ty.Ok] at ht
    obtain ⟨h1, h2⟩ := borrowTys_look ts ht st all
    rw [borrowTy, Ty.req, Cells.borrow, ← h1]
    cases hb : borrowTys st all ts with
    | error e => exact ⟨rfl, fun _ _ h => by cases h⟩
    | ok p =>
      obtain ⟨st1, o⟩ := p
      simp only [lookAll, Except.map, Except.bind]
      cases hd : st1.dropAll all with
      | error e => exact ⟨rfl, fun _ _ h => by cases h⟩
      | ok st2 =>
        refine ⟨?_, fun st' v h => ?_⟩
        · cases o <;> simp [look, Except.map, Held.views]
        · cases o with
          | none => cases h
          | some v => cases h; rw [Fills]; exact h2 _ _ hb
  | .plain => rw [Ty.Ok] at ht; exact ht.elim
theorem borrowTys_look (ts : List Ty) (ht : Ty.OkAll ts) (st : Cells) (all : Bool) :
    lookAll (borrowTys st all ts) = st.borrowEach all (Ty.reqs ts)
      ∧ ∀ st' vs, borrowTys st all ts = .ok (st', some vs) → FillsAll ts vs := by
  match ts with
  | [] =>
    rw [borrowTys, Ty.reqs, Cells.borrowEach]
    exact ⟨rfl, fun _ _ h => by cases h; simp [FillsAll]⟩
  | t :: ts =>
    rw [Ty.OkAll] at ht
    rw [borrowTys, Ty.reqs, Cells.borrowEach]
    cases hc : st.cloneAll all with
    | error e => exact ⟨rfl, fun _ _ h => by cases h⟩
    | ok st0 =>
      obtain ⟨h1, h2⟩ := borrowTy_look t ht.1 st0 all
      simp only [Except.bind]
      rw [← h1]
      cases hb : borrowTy st0 all t with
      | error e => exact ⟨rfl, fun _ _ h => by cases h⟩
      | ok p =>
        obtain ⟨st1, o⟩ := p
        cases o with
        | none => exact ⟨rfl, fun _ _ h => by cases h⟩
        | some v =>
          have hv := h2 _ _ hb
          obtain ⟨h3, h4⟩ := borrowTys_look ts ht.2 st1 all
          refine ⟨?_, fun st' vs h => ?_⟩
          · rw [show lookAll _ = lookAll (thenEach v (borrowTys st1 all ts)) from rfl, thenEach_look hv.notDflt, h3]
            rfl
          · obtain ⟨vs', e1, rfl⟩ := thenEach_some h
            rw [FillsAll]
            exact ⟨hv, h4 _ _ e1⟩
theorem borrowFields_look (fs : Fields) (ht : fs.Ok) (st : Cells) (all : Bool) :
    lookAll (borrowFields st all fs) = st.borrowEach all fs.reqs
      ∧ ∀ st' vs, borrowFields st all fs = .ok (st', some vs) → FillsFields fs vs := by
  match fs with
  | .nil =>
    rw [borrowFields, Fields.reqs, Cells.borrowEach]
    exact ⟨rfl, fun _ _ h => by cases h; simp [FillsFields]⟩
  | .cons name attrs t fs =>
    rw [Fields.Ok] at ht
    rw [borrowFields, Fields.reqs, isDefault_marked ht.1]
    cases hm : marked attrs with
    | true =>
      obtain ⟨h3, h4⟩ := borrowFields_look fs ht.2.2 st all
      rw [if_pos rfl, if_pos rfl, thenEach_dflt]
      refine ⟨h3, fun st' vs h => ?_⟩
      obtain ⟨vs', e1, rfl⟩ := thenEach_some h
      rw [FillsFields, if_pos hm]
      exact ⟨rfl, h4 _ _ e1⟩
    | false =>
      rw [if_neg (by simp), if_neg (by simp), Cells.borrowEach]
      cases hc : st.cloneAll all with
      | error e => exact ⟨rfl, fun _ _ h => by cases h⟩
      | ok st0 =>
        obtain ⟨h1, h2⟩ := borrowTy_look t (ht.2.1 hm) st0 all
        simp only [Except.bind]
        rw [← h1]
        cases hb : borrowTy st0 all t with
        | error e => exact ⟨rfl, fun _ _ h => by cases h⟩
        | ok p =>
          obtain ⟨st1, o⟩ := p
          cases o with
          | none => exact ⟨rfl, fun _ _ h => by cases h⟩
          | some v =>
            have hv := h2 _ _ hb
            obtain ⟨h3, h4⟩ := borrowFields_look fs ht.2.2 st1 all
            refine ⟨?_, fun st' vs h => ?_⟩
            · rw [show lookAll _ = lookAll (thenEach v (borrowFields st1 all fs)) from rfl, thenEach_look hv.notDflt, h3]
              rfl
            · obtain ⟨vs', e1, rfl⟩ := thenEach_some h
              rw [FillsFields, if_neg (by rw [hm]; simp)]
              exact ⟨hv, h4 _ _ e1⟩
end

mutual
theorem take_fail (env : Cells) (r : Req) {g g' : Lent} (h : g.take env r = (g', false)) : g' = { g with present := g'.present } := by
  match r with
  | .unit => rw [Lent.take] at h; cases h
  | .opt r => rw [Lent.take] at h; cases h
  | .view s x create trackOk =>
    rw [Lent.take] at h
    generalize hq : (if create = true then g.make s else g) = q at h
    split at h
    · cases h
    · cases h
      subst hq
      cases create <;> rfl
  | .tuple rs => rw [Lent.take] at h; exact takeAll_fail env rs h
theorem takeAll_fail (env : Cells) (rs : List Req) {g g' : Lent} (h : g.takeAll env rs = (g', false)) :
    g' = { g with present := g'.present } := by
  match rs with
  | [] => rw [Lent.takeAll] at h; cases h
  | r :: rs =>
    rw [Lent.takeAll] at h
    split at h
    · cases h; rfl
    · split at h
      · cases h
      · cases h; rfl
end

theorem takeAll_append (env : Cells) (a b : List Req) (g : Lent) :
    g.takeAll env (a ++ b) = (match g.takeAll env a with
      | (g', false) => (g', false)
      | (g', true) => match g'.takeAll env b with
        | (g'', true) => (g'', true)
        | (g'', false) => ({ g with present := g''.present }, false)) := by
  induction a generalizing g with
  | nil =>
    rw [List.nil_append, Lent.takeAll]
    show g.takeAll env b = match g.takeAll env b with
        | (g'', true) => (g'', true)
        | (g'', false) => ({ g with present := g''.present }, false)
    cases h : g.takeAll env b with
    | mk g' ok =>
      cases ok with
      | true => rfl
      | false =>
        have := takeAll_fail env b h
        dsimp only
        rw [← this]
  | cons r a ih =>
    rw [List.cons_append, Lent.takeAll, Lent.takeAll]
    cases h : g.take env r with
    | mk g1 ok =>
      cases ok with
      | false => rfl
      | true =>
        dsimp only
        rw [ih]
        cases h2 : g1.takeAll env a with
        | mk g2 ok =>
          cases ok with
          | false => rfl
          | true =>
            dsimp only
            cases h3 : g2.takeAll env b with
            | mk g3 ok => cases ok <;> rfl

theorem takeAll_single (env : Cells) (r : Req) (g : Lent) : g.takeAll env [r] = g.take env r := by
  rw [Lent.takeAll]
  cases h : g.take env r with
  | mk g1 ok =>
    cases ok with
    | true => dsimp only; rw [Lent.takeAll]
    | false =>
      have := take_fail env r h
      dsimp only
      rw [← this]

mutual
theorem take_flat (env : Cells) (r : Req) (g : Lent) : g.takeAll env r.flat = g.take env r := by
  match r with
  | .unit => rw [Req.flat, Lent.takeAll, Lent.take]
  | .view s x create trackOk => rw [Req.flat]; exact takeAll_single env _ g
  | .opt r => rw [Req.flat]; exact takeAll_single env _ g
  | .tuple rs => rw [Req.flat, Lent.take]; exact takeAll_flat env rs g
theorem takeAll_flat (env : Cells) (rs : List Req) (g : Lent) : g.takeAll env (Req.flatAll rs) = g.takeAll env rs := by
  match rs with
  | [] => rw [Req.flatAll]
  | r :: rs =>
    rw [Req.flatAll, takeAll_append, take_flat env r g, Lent.takeAll]
    cases h : g.take env r with
    | mk g1 ok =>
      cases ok with
      | false =>
        have := take_fail env r h
        dsimp only
        rw [← this]
      | true =>
        dsimp only
        rw [takeAll_flat env rs g1]
        cases h2 : g1.takeAll env rs with
        | mk g2 ok => cases ok <;> rfl
end

mutual
theorem borrowInfo_leaves (t : Ty) (ht : t.Ok) : borrowInfo t = t.req.leaves := by
  match t with
  | .unit => rw [borrowInfo, Ty.req, Req.leaves]
  | .view s x c k kind => rw [borrowInfo, Ty.req, Req.leaves]
  | .opt t => rw [borrowInfo, Ty.req, Req.leaves]; exact borrowInfo_leaves t (by rwa [Ty.Ok] at ht)
  | .tuple ts => rw [borrowInfo, Ty.req, Req.leaves]; exact borrowInfos_leaves ts (by rwa [Ty.Ok] at ht)
  | .unnamed ts => rw [borrowInfo, Ty.req, Req.leaves]; exact borrowInfos_leaves ts (by rwa [Ty.Ok] at ht)
  | .named fs => rw [borrowInfo, Ty.req, Req.leaves]; exact fieldInfos_leaves fs (by rwa [Ty.Ok] at ht)
  | .plain => rw [borrowInfo, Ty.req, Req.leaves]
theorem borrowInfos_leaves (ts : List Ty) (ht : Ty.OkAll ts) : borrowInfos ts = Req.leavesAll (Ty.reqs ts) := by
  match ts with
  | [] => rw [borrowInfos, Ty.reqs, Req.leavesAll]
  | t :: ts =>
    rw [Ty.OkAll] at ht
    rw [borrowInfos, Ty.reqs, Req.leavesAll, borrowInfo_leaves t ht.1, borrowInfos_leaves ts ht.2]
theorem fieldInfos_leaves (fs : Fields) (ht : fs.Ok) : fieldInfos fs = Req.leavesAll fs.reqs := by
  match fs with
  | .nil => rw [fieldInfos, Fields.reqs, Req.leavesAll]
  | .cons name attrs t fs =>
    rw [Fields.Ok] at ht
    rw [fieldInfos, Fields.reqs, isDefault_marked ht.1, fieldInfos_leaves fs ht.2.2]
    cases hm : marked attrs with
    | true => simp
    | false =>
      rw [if_neg (by simp), if_neg (by simp), Req.leavesAll, borrowInfo_leaves t (ht.2.1 hm)]
end

mutual
theorem info_has (t : Ty) (ht : t.Ok) (s : Nat) (x : Bool) : (s, x) ∈ borrowInfo t ↔ ∃ kind, Has s x kind t := by
  match t with
  | .unit => rw [borrowInfo]; exact ⟨fun h => (by cases h), fun ⟨_, h⟩ => by cases h⟩
  | .view s' x' c k kind =>
    rw [borrowInfo]
    constructor
    · intro h
      have := List.mem_singleton.1 h
      cases this
      exact ⟨kind, .here c k⟩
    · rintro ⟨kind', h⟩
      cases h
      simp
  | .opt t =>
    rw [borrowInfo, info_has t (by rwa [Ty.Ok] at ht)]
    exact ⟨fun ⟨k, h⟩ => ⟨k, .opt h⟩, fun ⟨k, h⟩ => by cases h with | opt h => exact ⟨k, h⟩⟩
  | .tuple ts =>
    rw [borrowInfo, infos_has ts (by rwa [Ty.Ok] at ht)]
    exact ⟨fun ⟨k, t, hm, h⟩ => ⟨k, .tuple hm h⟩, fun ⟨k, h⟩ => by cases h with | tuple hm h => exact ⟨k, _, hm, h⟩⟩
  | .unnamed ts =>
    rw [borrowInfo, infos_has ts (by rwa [Ty.Ok] at ht)]
    exact ⟨fun ⟨k, t, hm, h⟩ => ⟨k, .unnamed hm h⟩, fun ⟨k, h⟩ => by cases h with | unnamed hm h => exact ⟨k, _, hm, h⟩⟩
  | .named fs =>
    rw [borrowInfo, fieldInfo_has fs (by rwa [Ty.Ok] at ht)]
    exact ⟨fun ⟨k, h⟩ => ⟨k, .named h⟩, fun ⟨k, h⟩ => by cases h with | named h => exact ⟨k, h⟩⟩
  | .plain => rw [Ty.Ok] at ht; exact ht.elim
theorem infos_has (ts : List Ty) (ht : Ty.OkAll ts) (s : Nat) (x : Bool) :
    (s, x) ∈ borrowInfos ts ↔ ∃ kind, ∃ t ∈ ts, Has s x kind t := by
  match ts with
  | [] => rw [borrowInfos]; simp
  | t :: ts =>
    rw [Ty.OkAll] at ht
    rw [borrowInfos, List.mem_append, info_has t ht.1, infos_has ts ht.2]
    constructor
    · rintro (⟨k, h⟩ | ⟨k, t', hm, h⟩)
      · exact ⟨k, t, by simp, h⟩
      · exact ⟨k, t', by simp [hm], h⟩
    · rintro ⟨k, t', hm, h⟩
      rcases List.mem_cons.1 hm with rfl | hm
      · exact .inl ⟨k, h⟩
      · exact .inr ⟨k, t', hm, h⟩
theorem fieldInfo_has (fs : Fields) (ht : fs.Ok) (s : Nat) (x : Bool) : (s, x) ∈ fieldInfos fs ↔ ∃ kind, HasF s x kind fs := by
  match fs with
  | .nil => rw [fieldInfos]; exact ⟨fun h => (by cases h), fun ⟨_, h⟩ => by cases h⟩
  | .cons name attrs t fs =>
    rw [Fields.Ok] at ht
    rw [fieldInfos, List.mem_append, isDefault_marked ht.1, fieldInfo_has fs ht.2.2]
    cases hm : marked attrs with
    | true =>
      rw [if_pos rfl]
      constructor
      · rintro (h | ⟨k, h⟩)
        · cases h
        · exact ⟨k, .there h⟩
      · rintro ⟨k, h⟩
        cases h with
        | here hm' _ => rw [hm] at hm'; cases hm'
        | there h => exact .inr ⟨k, h⟩
    | false =>
      rw [if_neg (by simp), info_has t (ht.2.1 hm)]
      constructor
      · rintro (⟨k, h⟩ | ⟨k, h⟩)
        · exact ⟨k, .here hm h⟩
        · exact ⟨k, .there h⟩
      · rintro ⟨k, h⟩
        cases h with
        | here _ h => exact .inl ⟨k, h⟩
        | there h => exact .inr ⟨k, h⟩
end

mutual
theorem tracking_has (t : Ty) (ht : t.Ok) (s : Nat) (k : Track.Kind) :
    (s, k) ∈ enableTracking t ↔ ∃ x, Has s x (some k) t := by
  match t with
  | .unit => rw [enableTracking]; exact ⟨fun h => (by cases h), fun ⟨_, h⟩ => by cases h⟩
  | .view s' x' c ok kind =>
    rw [enableTracking]
    constructor
    · intro h
      cases kind with
      | none => simp at h
      | some k' =>
        simp only [Option.map_some, Option.toList_some, List.mem_singleton, Prod.mk.injEq] at h
        obtain ⟨rfl, rfl⟩ := h
        exact ⟨x', .here c ok⟩
    · rintro ⟨x, h⟩
      cases h
      simp
  | .opt t =>
    rw [enableTracking, tracking_has t (by rwa [Ty.Ok] at ht)]
    exact ⟨fun ⟨k, h⟩ => ⟨k, .opt h⟩, fun ⟨k, h⟩ => by cases h with | opt h => exact ⟨k, h⟩⟩
  | .tuple ts =>
    rw [enableTracking, trackings_has ts (by rwa [Ty.Ok] at ht)]
    exact ⟨fun ⟨k, t, hm, h⟩ => ⟨k, .tuple hm h⟩, fun ⟨k, h⟩ => by cases h with | tuple hm h => exact ⟨k, _, hm, h⟩⟩
  | .unnamed ts =>
    rw [enableTracking, trackings_has ts (by rwa [Ty.Ok] at ht)]
    exact ⟨fun ⟨k, t, hm, h⟩ => ⟨k, .unnamed hm h⟩, fun ⟨k, h⟩ => by cases h with | unnamed hm h => exact ⟨k, _, hm, h⟩⟩
  | .named fs =>
    rw [enableTracking, fieldTracking_has fs (by rwa [Ty.Ok] at ht)]
    exact ⟨fun ⟨k, h⟩ => ⟨k, .named h⟩, fun ⟨k, h⟩ => by cases h with | named h => exact ⟨k, h⟩⟩
  | .plain => rw [Ty.Ok] at ht; exact ht.elim
theorem trackings_has (ts : List Ty) (ht : Ty.OkAll ts) (s : Nat) (k : Track.Kind) :
    (s, k) ∈ enableTrackings ts ↔ ∃ x, ∃ t ∈ ts, Has s x (some k) t := by
  match ts with
  | [] => rw [enableTrackings]; simp
  | t :: ts =>
    rw [Ty.OkAll] at ht
    rw [enableTrackings, List.mem_append, tracking_has t ht.1, trackings_has ts ht.2]
    constructor
    · rintro (⟨k, h⟩ | ⟨k, t', hm, h⟩)
      · exact ⟨k, t, by simp, h⟩
      · exact ⟨k, t', by simp [hm], h⟩
    · rintro ⟨k, t', hm, h⟩
      rcases List.mem_cons.1 hm with rfl | hm
      · exact .inl ⟨k, h⟩
      · exact .inr ⟨k, t', hm, h⟩
theorem fieldTracking_has (fs : Fields) (ht : fs.Ok) (s : Nat) (k : Track.Kind) :
    (s, k) ∈ fieldTrackings fs ↔ ∃ x, HasF s x (some k) fs := by
  match fs with
  | .nil => rw [fieldTrackings]; exact ⟨fun h => (by cases h), fun ⟨_, h⟩ => by cases h⟩
  | .cons name attrs t fs =>
    rw [Fields.Ok] at ht
    rw [fieldTrackings, List.mem_append, isDefault_marked ht.1, fieldTracking_has fs ht.2.2]
    cases hm : marked attrs with
    | true =>
      rw [if_pos rfl]
      constructor
      · rintro (h | ⟨k, h⟩)
        · cases h
        · exact ⟨k, .there h⟩
      · rintro ⟨k, h⟩
        cases h with
        | here hm' _ => rw [hm] at hm'; cases hm'
        | there h => exact .inr ⟨k, h⟩
    | false =>
      rw [if_neg (by simp), tracking_has t (ht.2.1 hm)]
      constructor
      · rintro (⟨k, h⟩ | ⟨k, h⟩)
        · exact ⟨k, .here hm h⟩
        · exact ⟨k, .there h⟩
      · rintro ⟨k, h⟩
        cases h with
        | here _ h => exact .inl ⟨k, h⟩
        | there h => exact .inr ⟨k, h⟩
end

/-! ## `WorldBorrow` -/

theorem params_append {rs rs' : List WReq} {st st' : Cells} {vs : List View} :
    st.params (rs ++ rs') = .ok (st', some vs) ↔
      ∃ st1 a b, st.params rs = .ok (st1, some a) ∧ st1.params rs' = .ok (st', some b) ∧ vs = a ++ b := by
  induction rs generalizing st vs with
  | nil =>
    constructor
    · intro h
      exact ⟨st, [], vs, rfl, h, rfl⟩
    · rintro ⟨st1, a, b, h1, h2, rfl⟩
      cases h1
      exact h2
  | cons r rs ih =>
    constructor
    · intro h
      rw [List.cons_append, Cells.params] at h
      cases hw : st.worldBorrow r with
      | error e => rw [hw] at h; cases h
      | ok p =>
        obtain ⟨st1, o⟩ := p
        rw [hw] at h
        cases o with
        | none => cases h
        | some v =>
          simp only [Except.bind] at h
          cases hp : st1.params (rs ++ rs') with
          | error e => rw [hp] at h; cases h
          | ok q =>
            obtain ⟨st2, o⟩ := q
            rw [hp] at h
            cases o with
            | none =>
              simp only at h
              cases hd : st2.dropView v with
              | error e => rw [hd] at h; cases h
              | ok _ => rw [hd] at h; cases h
            | some vs' =>
              cases h
              obtain ⟨st3, a, b, e1, e2, rfl⟩ := ih.1 hp
              refine ⟨st3, v :: a, b, ?_, e2, rfl⟩
              rw [Cells.params, hw]
              simp only [Except.bind, e1]
    · rintro ⟨st1, a, b, h1, h2, rfl⟩
      rw [Cells.params] at h1
      rw [List.cons_append, Cells.params]
      cases hw : st.worldBorrow r with
      | error e => rw [hw] at h1; cases h1
      | ok p =>
        obtain ⟨st2, o⟩ := p
        rw [hw] at h1
        cases o with
        | none => cases h1
        | some v =>
          simp only [Except.bind] at h1 ⊢
          cases hp : st2.params rs with
          | error e => rw [hp] at h1; cases h1
          | ok q =>
            obtain ⟨st3, o⟩ := q
            rw [hp] at h1
            cases o with
            | none =>
              simp only at h1
              cases hd : st3.dropView v with
              | error e => rw [hd] at h1; cases h1
              | ok _ => rw [hd] at h1; cases h1
            | some vs' =>
              cases h1
              rw [ih.2 ⟨_, _, b, hp, h2, rfl⟩]
              rfl

theorem dropViews_append (a b : List View) (st : Cells) :
    st.dropViews (a ++ b) = (st.dropViews a).bind fun st => st.dropViews b := by
  induction a generalizing st with
  | nil => rw [Cells.dropViews]; rfl
  | cons v a ih =>
    rw [List.cons_append, Cells.dropViews, Cells.dropViews]
    cases st.dropView v with
    | error e => rfl
    | ok st1 => exact ih st1

theorem sharedOnAll_append (s : Nat) (a b : List View) : View.sharedOnAll s (a ++ b) = View.sharedOnAll s a + View.sharedOnAll s b := by
  induction a with
  | nil => simp [View.sharedOnAll]
  | cons v a ih => simp only [List.cons_append, View.sharedOnAll, ih]; omega

theorem exclusiveOnAll_append (s : Nat) (a b : List View) :
    View.exclusiveOnAll s (a ++ b) = View.exclusiveOnAll s a + View.exclusiveOnAll s b := by
  induction a with
  | nil => simp [View.exclusiveOnAll]
  | cons v a ih => simp only [List.cons_append, View.exclusiveOnAll, ih]; omega

/-- What the parameters `rs` give, whatever the way they are grouped. -/
structure Outcome (st st' : Cells) (n : Nat) (rs : List WReq) (o : Option (List View)) : Prop where
  good : Good st' n
  moves : Moves st st' (heldAllS o) (heldAllX o)
  done : ∀ vs, o = some vs → CleanAll st' vs ∧ st.params rs = .ok (st', some vs)
  lost : o = none → ∀ st1 vs, st.params rs ≠ .ok (st1, some vs)

theorem Outcome.nil {st : Cells} {n : Nat} (hg : Good st n) : Outcome st st n [] (some []) :=
  ⟨hg, (Moves.refl st).congr (fun _ => by simp [heldAllS, View.sharedOnAll]) (fun _ => by simp [heldAllX, View.exclusiveOnAll]),
    fun vs h => by
      cases h
      exact ⟨fun s => ⟨fun h => by simp [View.exclusiveOnAll] at h, fun h => by simp [View.exclusiveOnAll, View.sharedOnAll] at h⟩, rfl⟩,
    fun h => by cases h⟩

theorem Outcome.single {st st' : Cells} {n : Nat} {r : WReq} {o : Option View} (hg : Good st (n + r.cost))
    (h : st.worldBorrow r = .ok (st', o)) : Outcome st st' n [r] (o.map fun v => [v]) := by
  obtain ⟨_, _, h1, h2, h3, h4⟩ := worldBorrow_spec r hg
  rw [h] at h1
  cases h1
  refine ⟨h2, h3.congr (fun s => ?_) (fun s => ?_), fun vs hv => ?_, fun hn st1 vs hp => ?_⟩
  · cases o <;> simp [heldS, heldAllS, View.sharedOnAll]
  · cases o <;> simp [heldX, heldAllX, View.exclusiveOnAll]
  · cases o with
    | none => cases hv
    | some v =>
      cases hv
      refine ⟨fun s => ?_, ?_⟩
      · have := (h4 v rfl).2 s
        simpa [View.exclusiveOnAll, View.sharedOnAll] using this
      · rw [Cells.params, h]
        rfl
  · cases o with
    | some v => cases hn
    | none =>
      rw [Cells.params, h] at hp
      cases hp

theorem Outcome.mono {st st' : Cells} {n m : Nat} {rs : List WReq} {o : Option (List View)} (h : Outcome st st' n rs o) (hm : m ≤ n) :
    Outcome st st' m rs o := ⟨h.good.mono hm, h.moves, h.done, h.lost⟩

theorem Outcome.left {st st' : Cells} {n : Nat} {a b : List WReq} (h : Outcome st st' n a none) : Outcome st st' n (a ++ b) none :=
  ⟨h.good, h.moves, fun _ h => (by cases h), fun _ _ _ hp => by
    obtain ⟨st2, va, vb, e, _⟩ := params_append.1 hp
    exact h.lost rfl _ _ e⟩

theorem CleanAll.append {st : Cells} {a b : List View} (ha : CleanAll st a) (hb : CleanAll st b) : CleanAll st (a ++ b) := by
  intro s
  rw [sharedOnAll_append, exclusiveOnAll_append]
  obtain ⟨a1, a2⟩ := ha s
  obtain ⟨b1, b2⟩ := hb s
  constructor
  · intro h
    by_cases h0 : View.exclusiveOnAll s a = 0
    · exact b1 (by omega)
    · exact a1 h0
  · intro h
    by_cases h0 : View.sharedOnAll s a + View.exclusiveOnAll s a = 0
    · exact b2 (by omega)
    · exact a2 h0

theorem Outcome.both {st st1 st' : Cells} {n m : Nat} {a b : List WReq} {va vb : List View} (h : Outcome st st1 m a (some va))
    (h' : Outcome st1 st' n b (some vb)) : Outcome st st' n (a ++ b) (some (va ++ vb)) := by
  refine ⟨h'.good, (h.moves.trans h'.moves).congr (fun s => ?_) (fun s => ?_), fun vs hv => ?_, fun h => by cases h⟩
  · simp only [heldAllS, sharedOnAll_append]; omega
  · simp only [heldAllX, exclusiveOnAll_append]; omega
  · cases hv
    exact ⟨CleanAll.append ((h.done _ rfl).1.moves h'.moves) (h'.done _ rfl).1, params_append.2 ⟨_, _, _, (h.done _ rfl).2, (h'.done _ rfl).2, rfl⟩⟩

theorem Outcome.right {st st1 st2 : Cells} {n m : Nat} {a b : List WReq} {va : List View} (h : Outcome st st1 m a (some va))
    (h' : Outcome st1 st2 n b none) : ∃ st3, st2.dropViews va = .ok st3 ∧ Outcome st st3 n (a ++ b) none := by
  obtain ⟨st3, d1, d2, d3⟩ := dropViews_spec va h'.good ((h.done _ rfl).1.moves h'.moves) (fun s => by
    have := h.moves.shared s
    have := h.moves.exclusive s
    have := h'.moves.shared s
    have := h'.moves.exclusive s
    simp only [heldAllS, heldAllX] at *
    omega)
  refine ⟨st3, d1, d2, ((h.moves.trans h'.moves).trans d3).congr (fun s => ?_) (fun s => ?_), fun _ h => (by cases h), fun _ st4 vs hp => ?_⟩
  · simp only [heldAllS]; omega
  · simp only [heldAllX]; omega
  · obtain ⟨st5, xa, xb, e1, e2, _⟩ := params_append.1 hp
    rw [(h.done _ rfl).2] at e1
    cases e1
    exact h'.lost rfl _ _ e2

mutual
theorem dropHeld_parts (t : WTy) (v : Held) (h : WFills t v) (st : Cells) : dropHeld st v = st.dropViews (parts t v) := by
  match t with
  | .views t =>
    rw [parts, Cells.dropViews, dropHeld_views]
    cases st.dropView v.views with
    | error e => rfl
    | ok st1 => show _ = st1.dropViews []; rw [Cells.dropViews]
  | .allStorages x =>
    rw [parts, Cells.dropViews, dropHeld_views]
    cases st.dropView v.views with
    | error e => rfl
    | ok st1 => show _ = st1.dropViews []; rw [Cells.dropViews]
  | .named fs =>
    match v, h with
    | .struct vs, h => rw [WFills] at h; rw [dropHeld, parts]; exact dropHeld_partsFields fs vs h st
  | .unnamed ts =>
    match v, h with
    | .struct vs, h => rw [WFills] at h; rw [dropHeld, parts]; exact dropHeld_partsAll ts vs h st
theorem dropHeld_partsAll (ts : List WTy) (vs : List Held) (h : WFillsAll ts vs) (st : Cells) :
    dropHelds st vs = st.dropViews (partsAll ts vs) := by
  match ts, vs, h with
  | [], [], _ => rw [dropHelds, partsAll, Cells.dropViews]; intros; contradiction
  | t :: ts, v :: vs, h =>
    rw [WFillsAll] at h
    rw [dropHelds, partsAll, dropViews_append, dropHeld_parts t v h.1]
    congr
    funext st'
    exact dropHeld_partsAll ts vs h.2 st'
theorem dropHeld_partsFields (fs : WFields) (vs : List Held) (h : WFillsFields fs vs) (st : Cells) :
    dropHelds st vs = st.dropViews (partsFields fs vs) := by
  match fs, vs, h with
  | .nil, [], _ => rw [dropHelds, partsFields, Cells.dropViews] <;> (intros; contradiction)
  | .plain _ attrs fs, v :: vs, h =>
    rw [WFillsFields] at h
    rw [dropHelds, partsFields, h.1, dropHeld]
    exact dropHeld_partsFields fs vs h.2 st
  | .cons _ attrs t fs, v :: vs, h =>
    rw [WFillsFields] at h
    rw [dropHelds, partsFields, dropViews_append]
    split at h
    · rename_i hm
      rw [if_pos hm, h.1, dropHeld, Cells.dropViews]
      exact dropHeld_partsFields fs vs h.2 st
    · rename_i hm
      rw [if_neg hm, dropHeld_parts t v h.1]
      congr
      funext st'
      exact dropHeld_partsFields fs vs h.2 st'
end

mutual
theorem worldTy_spec (t : WTy) (ht : t.Ok) {st : Cells} {n : Nat} (hg : Good st (n + (t.flat.map WReq.cost).sum)) :
    ∃ st' o, worldBorrowTy st t = .ok (st', o) ∧ Outcome st st' n t.flat (o.map (parts t)) ∧ ∀ v, o = some v → WFills t v := by
  match t with
  | .views t =>
    rw [WTy.Ok] at ht
    rw [WTy.flat] at hg ⊢
    simp only [List.map_cons, List.map_nil, List.sum_cons, List.sum_nil, Nat.add_zero] at hg
    obtain ⟨st', o, h1, h2, h3, h4⟩ := worldBorrow_spec (.views t.req) hg
    have hs := Outcome.single hg h1
    rw [worldBorrowTy]
    unfold Cells.worldBorrow at h1
    cases hgd : st.guard allCell false with
    | error e => rw [hgd] at h1; cases h1
    | ok p =>
      obtain ⟨st1, got⟩ := p
      rw [hgd] at h1
      simp only [Except.bind] at h1 ⊢
      cases got with
      | false =>
        rw [if_pos rfl] at h1 ⊢
        cases h1
        exact ⟨_, none, rfl, hs, fun _ h => by cases h⟩
      | true =>
        rw [if_neg (by simp)] at h1 ⊢
        obtain ⟨e1, e2⟩ := borrowTy_look t ht st1 true
        rw [← e1] at h1
        cases hb : borrowTy st1 true t with
        | error e => rw [hb] at h1; cases h1
        | ok q =>
          obtain ⟨st2, o2⟩ := q
          rw [hb] at h1
          cases h1
          refine ⟨st2, o2, rfl, ?_, fun v hv => ?_⟩
          · cases o2 with
            | none => exact hs
            | some v => simpa [parts] using hs
          · subst hv
            rw [WFills]
            exact e2 _ _ hb
  | .allStorages x =>
    rw [WTy.flat] at hg ⊢
    simp only [List.map_cons, List.map_nil, List.sum_cons, List.sum_nil, Nat.add_zero] at hg
    obtain ⟨st', o, h1, h2, h3, h4⟩ := worldBorrow_spec (.allStorages x) hg
    have hs := Outcome.single hg h1
    rw [worldBorrowTy]
    unfold Cells.worldBorrow at h1
    dsimp only at h1
    cases hgd : st.guard allCell x with
    | error e => rw [hgd] at h1; cases h1
    | ok p =>
      obtain ⟨st1, got⟩ := p
      rw [hgd] at h1
      simp only [Except.map] at h1 ⊢
      cases h1
      refine ⟨_, _, rfl, ?_, fun v hv => ?_⟩
      · cases got <;> simpa [parts, Held.views] using hs
      · cases got with
        | false => cases hv
        | true => cases hv; simp [WFills]
  | .named fs =>
    rw [WTy.Ok] at ht
    rw [WTy.flat] at hg ⊢
    obtain ⟨st', o, h1, h2, h3⟩ := worldFields_spec fs ht hg
    rw [worldBorrowTy, h1]
    refine ⟨st', o.map .struct, rfl, ?_, fun v hv => ?_⟩
    · cases o with
      | none => exact h2
      | some vs => simpa [parts] using h2
    · cases o with
      | none => cases hv
      | some vs => cases hv; rw [WFills]; exact h3 _ rfl
  | .unnamed ts =>
    rw [WTy.Ok] at ht
    rw [WTy.flat] at hg ⊢
    obtain ⟨st', o, h1, h2, h3⟩ := worldTys_spec ts ht hg
    rw [worldBorrowTy, h1]
    refine ⟨st', o.map .struct, rfl, ?_, fun v hv => ?_⟩
    · cases o with
      | none => exact h2
      | some vs => simpa [parts] using h2
    · cases o with
      | none => cases hv
      | some vs => cases hv; rw [WFills]; exact h3 _ rfl
theorem worldTys_spec (ts : List WTy) (ht : WTy.OkAll ts) {st : Cells} {n : Nat} (hg : Good st (n + ((WTy.flatAll ts).map WReq.cost).sum)) :
    ∃ st' o, worldBorrowTys st ts = .ok (st', o) ∧ Outcome st st' n (WTy.flatAll ts) (o.map (partsAll ts))
      ∧ ∀ v, o = some v → WFillsAll ts v := by
  match ts with
  | [] =>
    rw [WTy.flatAll] at hg ⊢
    rw [worldBorrowTys]
    refine ⟨st, some [], rfl, ?_, fun v hv => ?_⟩
    · simpa [partsAll] using Outcome.nil (hg.mono (by omega))
    · cases hv; simp [WFillsAll]
  | t :: ts =>
    rw [WTy.OkAll] at ht
    rw [WTy.flatAll] at hg ⊢
    rw [List.map_append, List.sum_append] at hg
    obtain ⟨st1, o1, a1, a2, a3⟩ := worldTy_spec t ht.1 (n := n + ((WTy.flatAll ts).map WReq.cost).sum) (hg.mono (by omega))
    rw [worldBorrowTys, a1]
    simp only [Except.bind]
    cases o1 with
    | none => exact ⟨st1, none, rfl, (a2.left).mono (by omega), fun _ h => by cases h⟩
    | some v =>
      have hv := a3 v rfl
      obtain ⟨st2, o2, b1, b2, b3⟩ := worldTys_spec ts ht.2 (n := n) a2.good
      simp only [b1]
      cases o2 with
      | some vs =>
        refine ⟨st2, some (v :: vs), rfl, ?_, fun w hw => ?_⟩
        · simpa [partsAll] using Outcome.both a2 b2
        · cases hw; rw [WFillsAll]; exact ⟨hv, b3 _ rfl⟩
      | none =>
        obtain ⟨st3, c1, c2⟩ := Outcome.right a2 b2
        refine ⟨st3, none, ?_, c2, fun _ h => by cases h⟩
        simp only [thenEach, Except.bind, dropHeld_parts t v hv, c1]
        rfl
theorem worldFields_spec (fs : WFields) (ht : fs.Ok) {st : Cells} {n : Nat} (hg : Good st (n + (fs.flat.map WReq.cost).sum)) :
    ∃ st' o, worldBorrowFields st fs = .ok (st', o) ∧ Outcome st st' n fs.flat (o.map (partsFields fs))
      ∧ ∀ v, o = some v → WFillsFields fs v := by
  match fs with
  | .nil =>
    rw [WFields.flat] at hg ⊢
    rw [worldBorrowFields]
    refine ⟨st, some [], rfl, ?_, fun v hv => ?_⟩
    · simpa [partsFields] using Outcome.nil (hg.mono (by omega))
    · cases hv; simp [WFillsFields]
  | .plain name attrs fs =>
    rw [WFields.Ok] at ht
    rw [WFields.flat] at hg ⊢
    obtain ⟨st2, o2, b1, b2, b3⟩ := worldFields_spec fs ht.2.2 (n := n) hg
    rw [worldBorrowFields, isDefault_marked ht.1, if_pos ht.2.1, b1]
    cases o2 with
    | some vs =>
      refine ⟨st2, some (.dflt :: vs), rfl, ?_, fun w hw => ?_⟩
      · simpa [partsFields] using b2
      · cases hw; rw [WFillsFields]; exact ⟨rfl, b3 _ rfl⟩
    | none => exact ⟨st2, none, rfl, b2, fun _ h => by cases h⟩
  | .cons name attrs t fs =>
    rw [WFields.Ok] at ht
    rw [WFields.flat] at hg ⊢
    rw [worldBorrowFields, isDefault_marked ht.1]
    cases hm : marked attrs with
    | true =>
      rw [if_pos hm] at hg
      rw [if_pos rfl, if_pos rfl]
      obtain ⟨st2, o2, b1, b2, b3⟩ := worldFields_spec fs ht.2.2 (n := n) hg
      rw [b1]
      cases o2 with
      | some vs =>
        refine ⟨st2, some (.dflt :: vs), rfl, ?_, fun w hw => ?_⟩
        · simpa [partsFields, hm] using b2
        · cases hw; rw [WFillsFields, if_pos hm]; exact ⟨rfl, b3 _ rfl⟩
      | none => exact ⟨st2, none, rfl, b2, fun _ h => by cases h⟩
    | false =>
      rw [if_neg (by rw [hm]; simp)] at hg
      rw [if_neg (by simp), if_neg (by simp)]
      rw [List.map_append, List.sum_append] at hg
      obtain ⟨st1, o1, a1, a2, a3⟩ := worldTy_spec t (ht.2.1 hm) (n := n + (fs.flat.map WReq.cost).sum) (hg.mono (by omega))
      rw [a1]
      simp only [Except.bind]
      cases o1 with
      | none => exact ⟨st1, none, rfl, (a2.left).mono (by omega), fun _ h => by cases h⟩
      | some v =>
        have hv := a3 v rfl
        obtain ⟨st2, o2, b1, b2, b3⟩ := worldFields_spec fs ht.2.2 (n := n) a2.good
        simp only [b1]
        cases o2 with
        | some vs =>
          refine ⟨st2, some (v :: vs), rfl, ?_, fun w hw => ?_⟩
          · simpa [partsFields, hm] using Outcome.both a2 b2
          · cases hw; rw [WFillsFields, if_neg (by rw [hm]; simp)]; exact ⟨hv, b3 _ rfl⟩
        | none =>
          obtain ⟨st3, c1, c2⟩ := Outcome.right a2 b2
          refine ⟨st3, none, ?_, c2, fun _ h => by cases h⟩
          simp only [thenEach, Except.bind, dropHeld_parts t v hv, c1]
          rfl
end

end Verif.Custom
