import Verif.Lemmas.Delegates
/-! The invariant that ties the flags of the trees of delegated signers to the history of delegated authentications. -/
namespace Soroban.Delegates
open Soroban Soroban.Auth Soroban.Delegates.Spec

/-- The stack of matches of an entry. -/
def stackOf (t : Option DTracker) : Option (List Nat) := t.map DTracker.stack

/-- The invariant. -/
structure DOk (E : DEnv) (orig : List (Option (List XDelegate))) (s : DSt) : Prop where
  wf : Wf s
  shape : s.trackers.map shapeOf = orig
  used : ∀ i t, s.trackers[i]? = some (some t) → ∀ p n, nodeAt t.kids p = some n →
    (n.used = true ↔ ∃ l ∈ s.log, l.entry = i ∧ l.path = p)
  stack : ∀ i t, s.trackers[i]? = some (some t) → t.stack = [] ∨ ∃ l ∈ s.log, l.entry = i ∧ l.path = t.stack
  right : Right E orig s.log

theorem DOk.congr {E : DEnv} {orig : List (Option (List XDelegate))} {s s' : DSt} (h : DOk E orig s) (ht : s'.trackers = s.trackers)
    (hl : s'.log = s.log) (hw : s'.verified.length = s.verified.length) : DOk E orig s' := by
  refine ⟨?_, ?_, ?_, ?_, ?_⟩
  · unfold Wf; rw [ht, hw]; exact h.wf
  · rw [ht]; exact h.shape
  · rw [ht, hl]; exact h.used
  · rw [ht, hl]; exact h.stack
  · rw [hl]; exact h.right

theorem lt_of_get {α : Type} {l : List α} {i : Nat} {x : α} (h : l[i]? = some x) : i < l.length := by
  by_contra hx
  rw [List.getElem?_eq_none (by omega)] at h; cases h

theorem beginDelegate_ok {E : DEnv} {orig : List (Option (List XDelegate))} {c : Bool} {s s1 : DSt} {a : Addr} {i sig : Nat}
    (hd : DOk E orig s) (h : beginDelegate c s a = .ok (s1, i, sig))
    (ha : ∀ id, a = .account id → E.account id (E.entry i).payload sig = .ok ()) : DOk E orig s1 := by
  have hstep := beginDelegate_step h
  obtain ⟨rfl, fr, t, t', hf, ht, hp, rfl⟩ := beginDelegate_spec h
  obtain ⟨ks, j, n, hks, hn, hna, hns, hnu, hst, hk⟩ := tryPush_spec hp
  have hat : nodeAt t.kids t'.stack = some n := by rw [hst, nodeAt_append, hks]; exact hn
  have hlt := lt_of_get ht
  have hnew : ¬ ∃ l ∈ s.log, l.entry = i ∧ l.path = t'.stack := by
    intro hx
    have := (hd.used i t ht _ n hat).2 hx
    rw [hnu] at this; cases this
  have horig : orig[i]? = some (some (strips t.kids)) := by
    rw [← hd.shape, List.getElem?_map, ht]; rfl
  refine ⟨hstep.wf hd.wf, hstep.shape.trans hd.shape, ?_, ?_, ?_⟩
  · intro i2 t2 ht2 p m hm
    dsimp only at ht2 ⊢
    by_cases hi : i = i2
    · subst hi
      rw [List.getElem?_set, if_pos rfl, if_pos hlt] at ht2
      cases ht2
      rw [hk, ← hst] at hm
      have hu := used_markUsed t'.stack p t.kids
      rw [hm] at hu
      cases ho : nodeAt t.kids p with
      | none => rw [ho] at hu; cases hu
      | some m0 =>
        rw [ho] at hu
        simp only [Option.map_some, Option.some.injEq] at hu
        rw [hu, Bool.or_eq_true, decide_eq_true_eq, hd.used i t ht p m0 ho]
        simp only [List.mem_cons, exists_eq_or_imp]
        constructor
        · rintro (hx | hx)
          · exact .inr hx
          · exact .inl ⟨trivial, hx.symm⟩
        · rintro (⟨-, hx⟩ | hx)
          · exact .inr hx.symm
          · exact .inl hx
    · rw [List.getElem?_set, if_neg hi] at ht2
      rw [hd.used i2 t2 ht2 p m hm]
      simp only [List.mem_cons, exists_eq_or_imp]
      constructor
      · exact .inr
      · rintro (⟨hx, -⟩ | hx)
        · exact absurd hx hi
        · exact hx
  · intro i2 t2 ht2
    dsimp only at ht2 ⊢
    by_cases hi : i = i2
    · subst hi
      rw [List.getElem?_set, if_pos rfl, if_pos hlt] at ht2
      cases ht2
      exact .inr ⟨_, List.mem_cons_self, rfl, rfl⟩
    · rw [List.getElem?_set, if_neg hi] at ht2
      rcases hd.stack i2 t2 ht2 with hx | ⟨l, hl, hx⟩
      · exact .inl hx
      · exact .inr ⟨l, List.mem_cons_of_mem _ hl, hx⟩
  · refine ⟨?_, ?_, ?_, ?_⟩
    · refine List.Pairwise.cons (fun m hm hx => hnew ⟨m, hm, hx.1.symm, hx.2.symm⟩) hd.right.once
    · intro l hl
      rcases List.mem_cons.1 hl with rfl | hl
      · refine ⟨_, horig, ?_⟩
        rw [nodeAt_strips]
        dsimp only
        rw [hat, Option.map_some, hna, hns]
      · exact hd.right.signer l hl
    · intro pre l post hx q k hq hpath
      cases pre with
      | nil =>
        simp only [List.nil_append, List.cons.injEq] at hx
        obtain ⟨rfl, rfl⟩ := hx
        dsimp only at hpath
        rw [hst] at hpath
        obtain ⟨rfl, -⟩ := List.append_inj' hpath rfl
        rcases hd.stack i t ht with hx | ⟨m, hm, h1, h2⟩
        · exact absurd hx hq
        · exact ⟨m, hm, h1, h2⟩
      | cons x pre =>
        simp only [List.cons_append, List.cons.injEq] at hx
        exact hd.right.nested pre l post hx.2 q k hq hpath
    · intro l hl id hid
      rcases List.mem_cons.1 hl with rfl | hl
      · exact ha id hid
      · exact hd.right.accounts l hl id hid

/-- What code that does not fail does: the stacks are as before, and the history goes on. -/
structure Goes (s s' : DSt) : Prop where
  stacks : s'.trackers.map stackOf = s.trackers.map stackOf
  log : s.log <:+ s'.log

theorem Goes.refl (s : DSt) : Goes s s := ⟨rfl, List.suffix_refl _⟩
theorem Goes.trans {s1 s2 s3 : DSt} (h : Goes s1 s2) (h' : Goes s2 s3) : Goes s1 s3 :=
  ⟨h'.stacks.trans h.stacks, h.log.trans h'.log⟩

theorem Goes.at {s s' : DSt} (h : Goes s s') (i : Nat) : (s'.trackers[i]?).map stackOf = (s.trackers[i]?).map stackOf := by
  have := congrArg (fun l => l[i]?) h.stacks
  simpa [List.getElem?_map] using this

theorem checkAddr_ok {E : DEnv} {s s' : DSt} {a : Addr} {p sig : Nat} {f : DSt → DSt × Res Unit} {v : Unit}
    (h : checkAddr E s a p sig f = (s', .ok v)) :
    (∃ id, a = .account id ∧ s' = s ∧ E.account id p sig = .ok ()) ∨ (∃ id, a = .contract id ∧ f s = (s', .ok v)) := by
  unfold checkAddr at h
  cases a with
  | account id => cases v; exact .inl ⟨id, rfl, (congrArg Prod.fst h).symm, congrArg Prod.snd h⟩
  | contract id => exact .inr ⟨id, rfl, framed_ok h⟩

/-- A delegated authentication that succeeds. -/
theorem delegate_ok {E : DEnv} {orig : List (Option (List XDelegate))} {c : Bool} {s s1 s2 s3 : DSt} {a : Addr} {i sig : Nat}
    {f : DSt → DSt × Res Unit} {v w : Unit} (hd : DOk E orig s) (hb : beginDelegate c s a = .ok (s1, i, sig))
    (hrun : ∀ s', DOk E orig s1 → f s1 = (s', .ok v) → DOk E orig s' ∧ Goes s1 s')
    (hst : Step true s1 s2) (hc : checkAddr E s1 a (E.entry i).payload sig f = (s2, .ok v)) (he : endDelegate s2 = (s3, .ok w)) :
    DOk E orig s3 ∧ Goes s s3 := by
  have h12 : DOk E orig s1 ∧ DOk E orig s2 ∧ Goes s1 s2 := by
    rcases checkAddr_ok hc with ⟨id, rfl, rfl, hacc⟩ | ⟨id, rfl, hf⟩
    · have := beginDelegate_ok hd hb (fun id' h => by cases h; exact hacc)
      exact ⟨this, this, Goes.refl _⟩
    · have h1 := beginDelegate_ok hd hb (fun id' h => by cases h)
      obtain ⟨h2, h3⟩ := hrun s2 h1 hf
      exact ⟨h1, h2, h3⟩
  obtain ⟨h1, h2, h3⟩ := h12
  obtain ⟨rfl, fr, t, t', hfr, ht, hp, rfl⟩ := beginDelegate_spec hb
  obtain ⟨ks, j, n, hks, hn, hna, hns, hnu, hstk, hk⟩ := tryPush_spec hp
  have hlt := lt_of_get ht
  unfold endDelegate at he
  have hfr2 : s2.frames = i :: fr := by rw [hst.frames]; exact hfr
  rw [hfr2] at he
  dsimp only at he
  have hat := h3.at i
  dsimp only at hat
  rw [List.getElem?_set, if_pos rfl, if_pos hlt] at hat
  cases ht2 : s2.trackers[i]? with
  | none => rw [ht2] at hat; cases hat
  | some o =>
    rw [ht2] at hat he
    cases o with
    | none => simp [stackOf] at hat
    | some t2 =>
      dsimp only at he
      have hlt2 := lt_of_get ht2
      simp only [stackOf, Option.map_some, Option.some.injEq] at hat
      have hpop : t2.pop.stack = t.stack := by
        unfold DTracker.pop
        dsimp only
        rw [hat, hstk, List.dropLast_concat]
      have h3e : s3 = { s2 with trackers := s2.trackers.set i (some t2.pop), frames := i :: fr } := (congrArg Prod.fst he).symm
      have hlog : s.log <:+ s2.log := by
        have := h3.log
        dsimp only at this
        exact (List.suffix_cons _ _).trans this
      subst h3e
      constructor
      · refine ⟨?_, ?_, ?_, ?_, h2.right⟩
        · have := h2.wf; unfold Wf at *; simpa using this
        · dsimp only; rw [map_shape_set (t' := t2.pop) ht2 rfl]; exact h2.shape
        · intro i' t' ht' p m hm
          dsimp only at ht'
          by_cases hi : i = i'
          · subst hi
            rw [List.getElem?_set, if_pos rfl, if_pos hlt2] at ht'
            cases ht'
            exact h2.used i t2 ht2 p m hm
          · rw [List.getElem?_set, if_neg hi] at ht'
            exact h2.used i' t' ht' p m hm
        · intro i' t' ht'
          dsimp only at ht'
          by_cases hi : i = i'
          · subst hi
            rw [List.getElem?_set, if_pos rfl, if_pos hlt2] at ht'
            cases ht'
            rw [hpop]
            rcases hd.stack i t ht with hx | ⟨l, hl, hx⟩
            · exact .inl hx
            · exact .inr ⟨l, hlog.subset hl, hx⟩
          · rw [List.getElem?_set, if_neg hi] at ht'
            exact h2.stack i' t' ht'
      · refine ⟨?_, hlog⟩
        apply List.ext_getElem?
        intro i'
        simp only [List.getElem?_map]
        by_cases hi : i = i'
        · subst hi
          rw [List.getElem?_set, if_pos rfl, if_pos hlt2, ht]
          simp only [Option.map_some, stackOf, hpop]
        · rw [List.getElem?_set, if_neg hi]
          have := h3.at i'
          dsimp only at this
          rw [List.getElem?_set, if_neg hi] at this
          exact this

/-- `require_auth` that succeeds. -/
theorem verify_ok {E : DEnv} {orig : List (Option (List XDelegate))} {s s' : DSt} {i : Nat} {f : DSt → DSt × Res Unit} {v : Unit}
    (hd : DOk E orig s)
    (hrun : ∀ s1 s2 w, DOk E orig s1 → f s1 = (s2, .ok w) → DOk E orig s2 ∧ Goes s1 s2)
    (h : verify E s i f = (s', .ok v)) : DOk E orig s' ∧ Goes s s' := by
  unfold verify at h
  cases hv : s.verified[i]? with
  | none => rw [hv] at h; cases h
  | some b =>
    rw [hv] at h
    cases b with
    | true => cases h; exact ⟨hd, Goes.refl _⟩
    | false =>
      dsimp only at h
      rcases hc : checkAddr E { s with frames := i :: s.frames } (E.entry i).addr (E.entry i).payload (E.entry i).sig f with ⟨q, r⟩
      rw [hc] at h
      cases r with
      | error e => cases h
      | ok w =>
        dsimp only at h
        cases hn : E.nonce i with
        | error e => rw [hn] at h; cases h
        | ok _ =>
          rw [hn] at h
          have hs' : s' = { q with frames := q.frames.tail, verified := q.verified.set i true } := (congrArg Prod.fst h).symm
          have hd0 : DOk E orig { s with frames := i :: s.frames } := hd.congr rfl rfl rfl
          have hq : DOk E orig q ∧ Goes s q := by
            rcases checkAddr_ok hc with ⟨id, -, rfl, -⟩ | ⟨id, -, hf⟩
            · exact ⟨hd0, ⟨rfl, List.suffix_refl _⟩⟩
            · obtain ⟨h1, h2⟩ := hrun _ _ _ hd0 hf
              exact ⟨h1, ⟨h2.stacks, h2.log⟩⟩
          subst hs'
          exact ⟨hq.1.congr rfl rfl (by simp), ⟨hq.2.stacks, hq.2.log⟩⟩

theorem run_ok (E : DEnv) (orig : List (Option (List XDelegate))) : ∀ (p : CProg) (c : Bool) (s s' : DSt) (v : Unit), DOk E orig s →
    run E p c s = (s', .ok v) → DOk E orig s' ∧ Goes s s' := by
  intro p
  induction p with
  | ret => intro c s s' v hd h; cases h; exact ⟨hd, Goes.refl _⟩
  | fail e => intro c s s' v hd h; cases h
  | signers k ih =>
    intro c s s' v hd h
    rw [run] at h
    cases hl : currentSigners c s with
    | error e => rw [hl] at h; cases h
    | ok l => rw [hl] at h; exact ih l c s s' v hd h
  | delegate a body k ihb ihk =>
    intro c s s' v hd h
    rw [run] at h
    cases hb : beginDelegate c s a with
    | error e => rw [hb] at h; cases h
    | ok x =>
      obtain ⟨s1, i, sig⟩ := x
      rw [hb] at h
      dsimp only at h
      rcases hc : checkAddr E s1 a (E.entry i).payload sig (run E (body (E.entry i).payload sig (E.entry i).context) true) with ⟨s2, r⟩
      rw [hc] at h
      cases r with
      | error e => cases h
      | ok w =>
        dsimp only at h
        rcases he : endDelegate s2 with ⟨s3, r⟩
        rw [he] at h
        cases r with
        | error e => cases h
        | ok w' =>
          dsimp only at h
          have hw1 := (beginDelegate_step hb).wf hd.wf
          have hst := checkAddr_step (E := E) (a := a) (p := (E.entry i).payload) (sig := sig) hw1
            (run_step E (body (E.entry i).payload sig (E.entry i).context) true s1 hw1)
          rw [hc] at hst
          obtain ⟨h1, h2⟩ := delegate_ok hd hb (fun s' hd' hf => ihb _ _ _ true s1 s' _ hd' hf) hst hc he
          obtain ⟨h3, h4⟩ := ihk c s3 s' v h1 h
          exact ⟨h3, h2.trans h4⟩
  | auth i body k ihb ihk =>
    intro c s s' v hd h
    rw [run] at h
    by_cases hi : i ∈ s.frames
    · rw [if_pos hi] at h; cases h
    · rw [if_neg hi] at h
      rcases hv : verify E s i (run E (body (E.entry i).payload (E.entry i).sig (E.entry i).context) true) with ⟨s1, r⟩
      rw [hv] at h
      cases r with
      | error e => cases h
      | ok w =>
        dsimp only at h
        obtain ⟨h1, h2⟩ := verify_ok hd (fun s1 s2 w hd' hf => ihb _ _ _ true s1 s2 w hd' hf) hv
        obtain ⟨h3, h4⟩ := ihk c s1 s' v h1 h
        exact ⟨h3, h2.trans h4⟩
  | call body k ihb ihk =>
    intro c s s' v hd h
    rw [run] at h
    rcases hf : framed s (run E body false) with ⟨s1, r⟩
    rw [hf] at h
    cases r with
    | error e => cases h
    | ok w =>
      dsimp only at h
      obtain ⟨h1, h2⟩ := ihb false s s1 w hd (framed_ok hf)
      obtain ⟨h3, h4⟩ := ihk c s1 s' v h1 h
      exact ⟨h3, h2.trans h4⟩
  | tryCall body k ihb ihk =>
    intro c s s' v hd h
    rw [run] at h
    rcases hf : framed s (run E body false) with ⟨s1, r⟩
    rw [hf] at h
    cases r with
    | error e =>
      dsimp only at h
      have hs := framed_call_error hd.wf (run_step E body false s hd.wf) hf
      subst hs
      by_cases hr : recoverable e = true
      · rw [if_pos hr] at h; exact ihk false c _ s' v hd h
      · rw [if_neg hr] at h; cases h
    | ok w =>
      dsimp only at h
      obtain ⟨h1, h2⟩ := ihb false s s1 w hd (framed_ok hf)
      obtain ⟨h3, h4⟩ := ihk true c s1 s' v h1 h
      exact ⟨h3, h2.trans h4⟩

end Soroban.Delegates
