import Verif.Spec.BorrowRace

/-!
# The steps of a system are those of its borrows
-/
namespace Verif.Borrow

/-- Storages stay, same thread. -/
structure Keeps (me : Nat) (st st' : Cells) : Prop where
  present : ∀ s, st.present s = true → st'.present s = true
  me : st.me = me → st'.me = me

theorem Keeps.refl (me : Nat) (st : Cells) : Keeps me st st := ⟨fun _ h => h, id⟩
theorem Keeps.trans {me : Nat} {a b c : Cells} (h : Keeps me a b) (h' : Keeps me b c) : Keeps me a c :=
  ⟨fun s hs => h'.present s (h.present s hs), fun e => h'.me (h.me e)⟩

theorem act_keeps {me : Nat} {st st' : Cells} {s : Nat} {e : Ev} {b : Bool} (h : st.act s e = .ok (st', b)) : Keeps me st st' := by
  unfold Cells.act at h
  split at h <;> cases h <;> exact ⟨fun _ h => h, id⟩

theorem create_keeps (me : Nat) (st : Cells) (s : Nat) : Keeps me st (st.create s) := by
  unfold Cells.create
  split
  · exact Keeps.refl me st
  · exact ⟨fun k hk => by simp [hk], id⟩

theorem guard_keeps {me : Nat} {st st' : Cells} {s : Nat} {x b : Bool} (h : st.guard s x = .ok (st', b)) : Keeps me st st' := by
  unfold Cells.guard at h
  split at h
  · cases h; exact Keeps.refl me st
  · exact act_keeps h

theorem me_eta {st : Cells} {me : Nat} (h : st.me = me) : ({ st with me := me } : Cells) = st := by
  subst h; rfl

theorem exec_keeps {st st' : Cells} {me : Nat} {a : Act} {b : Bool} (hme : st.me = me) (h : st.exec me a = .ok (st', b)) :
    Keeps me st st' := by
  cases a with
  | borrow s x =>
    simp only [Cells.exec, me_eta hme] at h
    exact (create_keeps me st s).trans (guard_keeps h)
  | clone =>
    simp only [Cells.exec, me_eta hme] at h
    exact act_keeps h
  | drop s x =>
    simp only [Cells.exec, me_eta hme, Cells.dropGuard] at h
    cases ha : st.act s (if x then .dropExclusive else .dropShared) with
    | error e => rw [ha] at h; cases h
    | ok p => rw [ha] at h; cases h; exact act_keeps ha

theorem execAll_keeps {st st' : Cells} {me : Nat} {as : List Act} {b : Bool} (hme : st.me = me)
    (h : st.execAll me as = .ok (st', b)) : Keeps me st st' := by
  induction as generalizing st with
  | nil => cases h; exact Keeps.refl me _
  | cons a as ih =>
    simp only [Cells.execAll] at h
    cases he : st.exec me a with
    | error e => rw [he] at h; cases h
    | ok p =>
      obtain ⟨st1, got⟩ := p
      rw [he] at h
      have k := exec_keeps hme he
      cases got with
      | false => cases h; exact k
      | true => exact k.trans (ih (k.me hme) h)

theorem execAll_append {st st' : Cells} {me : Nat} {as bs : List Act} (h : st.execAll me (as ++ bs) = .ok (st', true)) :
    ∃ st1, st.execAll me as = .ok (st1, true) ∧ st1.execAll me bs = .ok (st', true) := by
  induction as generalizing st with
  | nil => exact ⟨st, rfl, h⟩
  | cons a as ih =>
    simp only [List.cons_append, Cells.execAll] at h ⊢
    cases he : st.exec me a with
    | error e => rw [he] at h; cases h
    | ok p =>
      obtain ⟨st1, got⟩ := p
      rw [he] at h
      cases got with
      | false => cases h
      | true => exact ih h

mutual
theorem Makes.mono (r : Req) {me : Nat} {st st' : Cells} (hk : Keeps me st st') (h : r.Makes st) : r.Makes st' := by
  match r with
  | .unit => trivial
  | .view s x c t => exact ⟨h.1, h.2.imp id (hk.present s)⟩
  | .opt r => simp only [Req.Makes] at h ⊢; exact Makes.mono r hk h
  | .tuple rs => simp only [Req.Makes] at h ⊢; exact MakesAll.mono rs hk h
theorem MakesAll.mono (rs : List Req) {me : Nat} {st st' : Cells} (hk : Keeps me st st') (h : Req.MakesAll st rs) : Req.MakesAll st' rs := by
  match rs with
  | [] => trivial
  | r :: rs =>
    simp only [Req.MakesAll] at h ⊢
    exact ⟨Makes.mono r hk h.1, MakesAll.mono rs hk h.2⟩
end

theorem dropAll_of_exec {st st' : Cells} {me : Nat} (hme : st.me = me) (h : st.execAll me [.drop allCell false] = .ok (st', true)) :
    st.dropAll true = .ok st' := by
  simp only [Cells.execAll, Cells.exec, me_eta hme, Cells.dropGuard] at h
  simp only [Cells.dropAll, if_true]
  cases ha : st.act allCell .dropShared with
  | error e => simp only [Bool.false_eq_true, if_false] at h; rw [ha] at h; cases h
  | ok p => simp only [Bool.false_eq_true, if_false] at h; rw [ha] at h; cases h; rfl

mutual
theorem borrow_of_exec (r : Req) {st st' : Cells} {me : Nat} (hme : st.me = me) (hm : r.Makes st)
    (h : st.execAll me r.acts = .ok (st', true)) : st.borrow true r = .ok (st', some r.whole) := by
  match r with
  | .unit =>
    simp only [Cells.borrow, dropAll_of_exec hme h]
    rfl
  | .view s x c t =>
    obtain ⟨rfl, hc⟩ := hm
    simp only [Req.acts, Cells.execAll, Cells.exec, me_eta hme] at h
    have hst : (if c then st.create s else st) = st.create s := by
      cases c with
      | true => rfl
      | false =>
        rcases hc with hc | hc
        · cases hc
        · simp [Cells.create, hc]
    have hp : (st.create s).present s = true := by
      unfold Cells.create
      split
      · assumption
      · simp
    simp only [Cells.borrow, Cells.borrowView, hst, hp, Bool.true_eq_false, if_false]
    cases hg : (st.create s).guard s x with
    | error e => rw [hg] at h; cases h
    | ok p =>
      obtain ⟨st1, got⟩ := p
      rw [hg] at h
      cases got with
      | false => cases h
      | true => cases h; rfl
  | .opt r =>
    simp only [Req.acts] at h
    simp only [Req.Makes] at hm
    simp only [Cells.borrow, borrow_of_exec r hme hm h, Req.whole]
    rfl
  | .tuple rs =>
    simp only [Req.acts] at h
    simp only [Req.Makes] at hm
    obtain ⟨st1, h1, h2⟩ := execAll_append h
    simp only [Cells.borrow, borrowEach_of_exec rs hme hm h1, Req.whole]
    show (st1.dropAll true).map _ = _
    rw [dropAll_of_exec ((execAll_keeps hme h1).me hme) h2]
    rfl
theorem borrowEach_of_exec (rs : List Req) {st st' : Cells} {me : Nat} (hme : st.me = me) (hm : Req.MakesAll st rs)
    (h : st.execAll me (Req.actsAll rs) = .ok (st', true)) : st.borrowEach true rs = .ok (st', some (Req.wholeAll rs)) := by
  match rs with
  | [] => cases h; rfl
  | r :: rs =>
    simp only [Req.actsAll] at h
    simp only [Req.MakesAll] at hm
    have h' : st.execAll me ([.clone] ++ (r.acts ++ Req.actsAll rs)) = .ok (st', true) := h
    obtain ⟨st1, h1, h2⟩ := execAll_append h'
    obtain ⟨st2, h3, h4⟩ := execAll_append h2
    have k1 := execAll_keeps hme h1
    have k2 := execAll_keeps (k1.me hme) h3
    have hc : st.cloneAll true = .ok st1 := by
      simp only [Cells.execAll, Cells.exec, me_eta hme] at h1
      simp only [Cells.cloneAll, if_true]
      cases ha : st.act allCell .clone with
      | error e => rw [ha] at h1; cases h1
      | ok p =>
        obtain ⟨s2, got⟩ := p
        rw [ha] at h1
        cases got <;> cases h1
        rfl
    simp only [Cells.borrowEach, hc, Req.wholeAll]
    show ((st1.borrow true r).bind _) = _
    rw [borrow_of_exec r (k1.me hme) (Makes.mono r k1 hm.1) h3]
    show ((st2.borrowEach true rs).bind _) = _
    rw [borrowEach_of_exec rs (k2.me (k1.me hme)) (MakesAll.mono rs (k1.trans k2) hm.2) h4]
    rfl
end

end Verif.Borrow
