import Verif.Lemmas.DelegatesOk
/-!
C52: delegated signers. An account contract can pass its signature payload on to other signers with `delegate_account_auth`; the
signers and their signatures are listed, in a tree, in the authorization entry.
-/
namespace Soroban.Props
open Soroban Soroban.Auth Soroban.Delegates Soroban.Delegates.Spec

/-- The state at the start of a transaction meets the invariant. -/
theorem fresh_ok {E : DEnv} {lt : Addr → Addr → Bool} {orig : List (Option (List XDelegate))} {s : DSt} (h : Delegates.Spec.Fresh lt orig s) :
    DOk E orig s := by
  have htr : s.trackers.map shapeOf = orig := by
    have := h.trackers
    clear h
    generalize s.trackers = ts at this
    induction this with
    | nil => rfl
    | @cons o t os ts ho _ ih =>
      have ho' : shapeOf t = o := by
        cases o with
        | none =>
          dsimp only at ho
          rw [ho]; rfl
        | some xs =>
          obtain ⟨d, rfl, hd⟩ := ho
          unfold trackerFromXdr at hd
          by_cases hs : sorted lt xs = true
          · rw [if_pos hs] at hd
            cases hn : nodesFromXdr lt xs with
            | error e => rw [hn] at hd; cases hd
            | ok ks =>
              rw [hn] at hd; cases hd
              simp [shapeOf, (nodesFromXdr_strip lt xs ks hn).1]
          · rw [if_neg hs] at hd; cases hd
      rw [List.map_cons, ih, ho']
  have hall : ∀ (i : Nat) (t : DTracker), s.trackers[i]? = some (some t) → ∃ xs, nodesFromXdr lt xs = .ok t.kids ∧ t.stack = [] := by
    intro i t ht
    have hmem : some t ∈ s.trackers := List.mem_of_getElem? ht
    have := h.trackers
    clear h htr ht
    generalize s.trackers = ts at this hmem
    induction this with
    | nil => cases hmem
    | @cons o t' os ts ho _ ih =>
      rcases List.mem_cons.1 hmem with hm | hm
      · subst hm
        cases o with
        | none => cases ho
        | some xs =>
          obtain ⟨d, hd1, hd⟩ := ho
          cases hd1
          unfold trackerFromXdr at hd
          by_cases hs : sorted lt xs = true
          · rw [if_pos hs] at hd
            cases hn : nodesFromXdr lt xs with
            | error e => rw [hn] at hd; cases hd
            | ok ks => rw [hn] at hd; cases hd; exact ⟨xs, hn, rfl⟩
          · rw [if_neg hs] at hd; cases hd
      · exact ih hm
  refine ⟨?_, htr, ?_, ?_, ?_⟩
  · unfold Wf
    rw [h.verified, ← htr]; simp
  · intro i t ht p n hn
    obtain ⟨xs, hx, -⟩ := hall i t ht
    rw [(nodesFromXdr_strip lt xs _ hx).2 p n hn, h.log]
    simp
  · intro i t ht
    obtain ⟨xs, -, hx⟩ := hall i t ht
    exact .inl hx
  · rw [h.log]
    exact ⟨List.Pairwise.nil, fun l hl => (by cases hl), fun pre l post hx => (by cases pre <;> cases hx), fun l hl => (by cases hl)⟩

/-- C52: in a transaction, whatever the contracts do, the delegated authentications that are in effect are right: no signer is
used twice, each is a signer listed in the entry that is being authenticated, with the signature listed there, at its place in
the tree, and after the signer it is nested in; and Stellar accounts have signed the payload of that entry. This holds at the end
of a transaction and at every point where the code has not failed. -/
theorem C52_history (E : DEnv) (lt : Addr → Addr → Bool) (orig : List (Option (List XDelegate))) (s : DSt) (h : Delegates.Spec.Fresh lt orig s)
    (p : CProg) {s' : DSt} {v : Unit} (hr : run E p false s = (s', .ok v)) : Right E orig s'.log :=
  (run_ok E orig p false s s' v (fresh_ok h) hr).1.right

/-- States in which code of a transaction can be running: `c` says that it is the code of a `__check_auth` function. -/
inductive InTx (E : DEnv) (lt : Addr → Addr → Bool) (orig : List (Option (List XDelegate))) : Bool → DSt → Prop
  | start {s : DSt} : Delegates.Spec.Fresh lt orig s → InTx E lt orig false s
  | ran {c : Bool} {s s' : DSt} {p : CProg} {v : Unit} : InTx E lt orig c s → run E p c s = (s', .ok v) → InTx E lt orig c s'
  | called {c : Bool} {s : DSt} : InTx E lt orig c s → InTx E lt orig false s
  | checking {c : Bool} {s : DSt} {i id : Nat} : InTx E lt orig c s → i ∉ s.frames → s.verified[i]? = some false →
      (E.entry i).addr = .contract id → InTx E lt orig true { s with frames := i :: s.frames }
  | delegated {s s1 : DSt} {id i sig : Nat} : InTx E lt orig true s → beginDelegate true s (.contract id) = .ok (s1, i, sig) →
      InTx E lt orig true s1

theorem inTx_ok {E : DEnv} {lt : Addr → Addr → Bool} {orig : List (Option (List XDelegate))} {c : Bool} {s : DSt}
    (h : InTx E lt orig c s) : DOk E orig s := by
  induction h with
  | start h => exact fresh_ok h
  | ran _ hr ih => exact (run_ok E orig _ _ _ _ _ ih hr).1
  | called _ ih => exact ih
  | checking _ _ _ _ ih => exact ih.congr rfl rfl rfl
  | delegated _ hb ih => exact beginDelegate_ok ih hb (fun _ h => (by cases h))

/-- C52: the history is right in every state of a transaction. -/
theorem C52_every_state {E : DEnv} {lt : Addr → Addr → Bool} {orig : List (Option (List XDelegate))} {c : Bool} {s : DSt}
    (h : InTx E lt orig c s) : Right E orig s.log := (inTx_ok h).right

/-- The signer (by its path) whose `__check_auth` is running in the authentication of an entry: the empty path is the account of
the entry itself. -/
def current (s : DSt) (i : Nat) : Option (List Nat) := (s.trackers[i]?.join).map DTracker.stack

/-- C52: `delegate_account_auth(a)` succeeds only in a `__check_auth` function, only if `a` is one of the signers listed, for the entry
on top, directly below the signer whose `__check_auth` is running, and has not been used before; and only if the authentication of
`a` succeeds with the signature listed there and the payload and the context of the entry. While the code of `a` runs, `a` is the
current signer; afterwards the previous one is. -/
theorem C52_delegate {E : DEnv} {lt : Addr → Addr → Bool} {orig : List (Option (List XDelegate))} {c : Bool} {s s' : DSt}
    (h : InTx E lt orig c s) {a : Addr} {body : Nat → Nat → Nat → CProg} {v : Unit}
    (hr : run E (.delegate a body .ret) c s = (s', .ok v)) :
    c = true ∧ ∃ i fr path j xs sig, s.frames = i :: fr ∧ current s i = some path ∧ orig[i]? = some (some xs) ∧
      signerAt xs (path ++ [j]) = some (a, sig) ∧ (∀ l ∈ s.log, ¬ (l.entry = i ∧ l.path = path ++ [j])) ∧
      current s' i = some path ∧ s'.frames = s.frames ∧
      ((∃ id, a = .account id ∧ E.account id (E.entry i).payload sig = .ok ()) ∨
       (∃ id s1 s2, a = .contract id ∧ InTx E lt orig true s1 ∧ s1.frames = s.frames ∧ current s1 i = some (path ++ [j]) ∧
          s1.log = ⟨i, path ++ [j], a, sig⟩ :: s.log ∧
          run E (body (E.entry i).payload sig (E.entry i).context) true s1 = (s2, .ok ()))) := by
  have hd := inTx_ok h
  have hgo := (run_ok E orig _ c s s' v hd hr).2
  have hstep := run_step E (.delegate a body .ret) c s hd.wf
  rw [hr] at hstep
  rw [run] at hr
  cases hb : beginDelegate c s a with
  | error e => rw [hb] at hr; cases hr
  | ok x =>
    obtain ⟨s1, i, sig⟩ := x
    rw [hb] at hr
    dsimp only at hr
    rcases hc : checkAddr E s1 a (E.entry i).payload sig (run E (body (E.entry i).payload sig (E.entry i).context) true) with ⟨s2, r⟩
    rw [hc] at hr
    cases r with
    | error e => cases hr
    | ok w =>
      obtain ⟨rfl, fr, t, t', hf, ht, hp, hs1⟩ := beginDelegate_spec hb
      obtain ⟨ks, j, n, hks, hn, hna, hns, hnu, hst, hk⟩ := tryPush_spec hp
      have hat : nodeAt t.kids (t.stack ++ [j]) = some n := by rw [nodeAt_append, hks]; exact hn
      have horig : orig[i]? = some (some (strips t.kids)) := by
        rw [← hd.shape, List.getElem?_map, ht]; rfl
      have hlt := lt_of_get ht
      have hcur : current s i = some t.stack := by simp [current, ht]
      refine ⟨rfl, i, fr, t.stack, j, strips t.kids, sig, hf, hcur, horig, ?_, ?_, ?_, ?_, ?_⟩
      · rw [nodeAt_strips, hat, Option.map_some, hna, hns]
      · intro l hl hx
        have := (hd.used i t ht _ n hat).2 ⟨l, hl, hx⟩
        rw [hnu] at this; cases this
      · have := hgo.at i
        rw [ht] at this
        unfold current
        cases hq : s'.trackers[i]? with
        | none => rw [hq] at this; cases this
        | some o =>
          rw [hq] at this
          simp only [Option.map_some, Option.some.injEq] at this
          simpa [stackOf] using this
      · exact hstep.frames
      · rcases checkAddr_ok hc with ⟨id, rfl, -, hacc⟩ | ⟨id, rfl, hrun⟩
        · exact .inl ⟨id, rfl, hacc⟩
        · refine .inr ⟨id, s1, s2, rfl, .delegated h hb, ?_, ?_, ?_, hrun⟩
          · rw [hs1]
          · rw [hs1]; simp [current, hlt, hst]
          · rw [hs1, hst]

/-- C52: a signer that is listed in the right place and has not been used can be used: `delegate_account_auth` runs its
authentication with the signature listed, and succeeds if that does. -/
theorem C52_delegate_succeeds {E : DEnv} {lt : Addr → Addr → Bool} {orig : List (Option (List XDelegate))} {s : DSt}
    (h : InTx E lt orig true s) {i : Nat} {fr : List Nat} {path : List Nat} {xs ys : List XDelegate} {a : Addr}
    (hf : s.frames = i :: fr) (hc : current s i = some path) (ho : orig[i]? = some (some xs)) (hy : nestedAt xs path = some ys)
    (ha : ∃ sig n, XDelegate.mk a sig n ∈ ys)
    (hnew : ∀ l ∈ s.log, l.addr = a → ¬ ∃ j, l.entry = i ∧ l.path = path ++ [j]) :
    ∃ j sig s1, signerAt xs (path ++ [j]) = some (a, sig) ∧ beginDelegate true s a = .ok (s1, i, sig) ∧
      s1.log = ⟨i, path ++ [j], a, sig⟩ :: s.log ∧ current s1 i = some (path ++ [j]) := by
  have hd := inTx_ok h
  unfold current at hc
  cases ht : s.trackers[i]? with
  | none => rw [ht] at hc; cases hc
  | some o =>
    cases o with
    | none => rw [ht] at hc; cases hc
    | some t =>
      rw [ht] at hc
      have hst : t.stack = path := by simpa using hc
      have horig : orig[i]? = some (some (strips t.kids)) := by
        rw [← hd.shape, List.getElem?_map, ht]; rfl
      rw [horig] at ho
      cases ho
      rw [kidsAt_strips] at hy
      cases hks : kidsAt t.kids path with
      | none => rw [hks] at hy; cases hy
      | some ks =>
        rw [hks] at hy
        simp only [Option.map_some, Option.some.injEq] at hy
        subst hy
        obtain ⟨sig0, nn, hmem⟩ := ha
        rw [strips_eq] at hmem
        obtain ⟨m, hm, hmx⟩ := List.mem_map.1 hmem
        rw [DNode.strip_eq] at hmx
        have hma : m.addr = a := by cases hmx; rfl
        have hfind : ∀ (l : List DNode) (k : Nat), m ∈ l → ∃ x, findAddr a l k = some x := by
          intro l
          induction l with
          | nil => intro k hx; cases hx
          | cons y l ih =>
            intro k hx
            rw [findAddr]
            by_cases hy : y.addr = a
            · exact ⟨_, by rw [if_pos hy]⟩
            · rw [if_neg hy]
              rcases List.mem_cons.1 hx with rfl | hx
              · exact absurd hma hy
              · exact ih _ hx
        obtain ⟨⟨j, n⟩, hfd⟩ := hfind ks 0 hm
        obtain ⟨-, hn, hna⟩ := findAddr_spec ks hfd
        rw [Nat.sub_zero] at hn
        have hat : nodeAt t.kids (path ++ [j]) = some n := by rw [nodeAt_append, hks]; exact hn
        have hnu : n.used = false := by
          cases hu : n.used with
          | false => rfl
          | true =>
            obtain ⟨l, hl, h1, h2⟩ := (hd.used i t ht _ n hat).1 hu
            obtain ⟨zs, hz, hsig⟩ := hd.right.signer l hl
            rw [h1, horig] at hz
            cases hz
            rw [h2, nodeAt_strips, hat] at hsig
            simp only [Option.map_some, Option.some.injEq, Prod.mk.injEq] at hsig
            exact absurd ⟨j, h1, h2⟩ (hnew l hl (by rw [← hsig.1, hna]))
        have hlt := lt_of_get ht
        have htp : t.tryPush a = .ok ({ kids := markUsed t.kids (t.stack ++ [j]), stack := t.stack ++ [j] }, n.sig) := by
          unfold DTracker.tryPush
          rw [hst, hks]
          dsimp only
          rw [hfd]
          dsimp only
          rw [if_neg (by simp [hnu])]
        refine ⟨j, n.sig, { s with trackers := s.trackers.set i (some { kids := markUsed t.kids (t.stack ++ [j]), stack := t.stack ++ [j] }),
                                   log := ⟨i, t.stack ++ [j], a, n.sig⟩ :: s.log }, ?_, ?_, ?_, ?_⟩
        · rw [nodeAt_strips, hat, Option.map_some, hna]
        · unfold beginDelegate
          rw [if_neg (by simp), hf]
          dsimp only
          rw [ht]
          dsimp only
          rw [htp]
        · dsimp only; rw [hst]
        · simp [current, hlt, hst]

/-- C52: a contract that requires an authorization is not told why the signer of the entry could not be authenticated, unless it is an
error that no contract can handle. -/
theorem C52_reported (E : DEnv) {s : DSt} {i : Nat} {check : DSt → DSt × Res Unit} {e : Err} (hv : s.verified[i]? = some false)
    (h : (checkAddr E { s with frames := i :: s.frames } (E.entry i).addr (E.entry i).payload (E.entry i).sig check).2 = .error e) :
    (Delegates.Spec.Final e → (verify E s i check).2 = .error e) ∧
    (¬ Delegates.Spec.Final e → (verify E s i check).2 = .error (.host .auth .invalidAction)) := by
  have hr : recoverable e = false ↔ Delegates.Spec.Final e := by
    constructor
    · intro hr
      cases e with
      | contract n => cases hr
      | host t c =>
        by_cases hc : c = .internalError
        · subst hc; exact .internal t
        · by_cases hl : c = .exceededLimit
          · subst hl
            by_cases h1 : t = .budget
            · subst h1; exact .budget
            · by_cases h2 : t = .storage
              · subst h2; exact .storage
              · simp [recoverable, h1, h2] at hr
          · simp [recoverable, hc, hl] at hr
    · intro hf
      cases hf <;> simp [recoverable]
  unfold verify
  rw [hv]
  dsimp only
  rw [h]
  dsimp only
  unfold hideError
  refine ⟨fun hf => ?_, fun hf => ?_⟩
  · rw [hr.mpr hf]; rfl
  · rw [if_pos (by
      cases hx : recoverable e with
      | true => rfl
      | false => exact absurd (hr.mp hx) hf)]

/-- C52: `get_delegated_signers_for_current_auth_check` is only for `__check_auth`; it returns the addresses of the signers nested in
the one that is being authenticated, those of the entry if it is the account of the entry, in the order in which they are listed. -/
theorem C52_signers {E : DEnv} {lt : Addr → Addr → Bool} {orig : List (Option (List XDelegate))} {c : Bool} {s : DSt}
    (h : InTx E lt orig c s) {i : Nat} {fr : List Nat} (hf : s.frames = i :: fr) :
    (c = false → ∃ e, currentSigners c s = .error e) ∧
    (c = true → orig[i]? = some none → currentSigners c s = .ok []) ∧
    (c = true → ∀ xs path ys, orig[i]? = some (some xs) → current s i = some path → nestedAt xs path = some ys →
      currentSigners c s = .ok (ys.map (fun d => match d with | .mk a _ _ => a))) := by
  have hd := inTx_ok h
  refine ⟨?_, ?_, ?_⟩
  · rintro rfl
    exact ⟨_, rfl⟩
  · rintro rfl ho
    unfold currentSigners
    rw [if_neg (by simp), hf]
    dsimp only
    rw [← hd.shape, List.getElem?_map] at ho
    cases ht : s.trackers[i]? with
    | none => rw [ht] at ho; cases ho
    | some o =>
      cases o with
      | none => rfl
      | some t => rw [ht] at ho; cases ho
  · rintro rfl xs path ys ho hc hy
    unfold currentSigners
    rw [if_neg (by simp), hf]
    dsimp only
    unfold current at hc
    cases ht : s.trackers[i]? with
    | none => rw [ht] at hc; cases hc
    | some o =>
      cases o with
      | none => rw [ht] at hc; cases hc
      | some t =>
        rw [ht] at hc
        have hst : t.stack = path := by simpa using hc
        have horig : orig[i]? = some (some (strips t.kids)) := by
          rw [← hd.shape, List.getElem?_map, ht]; rfl
        rw [horig] at ho
        cases ho
        rw [kidsAt_strips] at hy
        dsimp only
        unfold DTracker.signers
        rw [hst]
        cases hks : kidsAt t.kids path with
        | none => rw [hks] at hy; cases hy
        | some ks =>
          rw [hks] at hy
          simp only [Option.map_some, Option.some.injEq] at hy
          subst hy
          dsimp only
          rw [strips_eq, List.map_map]
          congr 1
          apply List.map_congr_left
          intro n _
          rw [Function.comp, DNode.strip_eq]

/-- C52: a call that fails has no effect on the signers, even if it was made in the middle of an authentication: all signers,
flags and entries are as they were, so the caller can go on. -/
theorem C52_failed_call {E : DEnv} {lt : Addr → Addr → Bool} {orig : List (Option (List XDelegate))} {c : Bool} {s s' : DSt}
    (h : InTx E lt orig c s) {p : CProg} {e : Err} (hr : framed s (run E p false) = (s', .error e)) : s' = s :=
  framed_call_error (inTx_ok h).wf (run_step E p false s (inTx_ok h).wf) hr

/-- C52: code that is not `__check_auth`, and what it calls, uses none of the signers of the entries that are being
authenticated. -/
theorem C52_only_check_auth {E : DEnv} {lt : Addr → Addr → Bool} {orig : List (Option (List XDelegate))} {c : Bool} {s s' : DSt}
    (h : InTx E lt orig c s) {p : CProg} {v : Unit} (hr : run E p false s = (s', .ok v)) {i : Nat} (hi : i ∈ s.frames) :
    ∀ l ∈ s'.log, l.entry = i → l ∈ s.log := by
  have hd := inTx_ok h
  obtain ⟨hd', hgo⟩ := run_ok E orig p false s s' v hd hr
  have hstep := run_step E p false s hd.wf
  rw [hr] at hstep
  intro l hl hli
  obtain ⟨xs, hx, hsig⟩ := hd'.right.signer l hl
  have hk := hstep.keep i hi (.inl rfl)
  dsimp only at hk
  have hx' := hx
  rw [hli, ← hd.shape, List.getElem?_map] at hx
  cases ht : s.trackers[i]? with
  | none => rw [ht] at hx; cases hx
  | some o =>
    cases o with
    | none => rw [ht] at hx; simp [shapeOf] at hx
    | some t =>
      rw [ht] at hx hk
      simp only [shapeOf, Option.map_some, Option.some.injEq] at hx
      subst hx
      rw [nodeAt_strips] at hsig
      cases hn : nodeAt t.kids l.path with
      | none => rw [hn] at hsig; cases hsig
      | some n =>
        have h1 := (hd'.used i t hk _ n hn).2 ⟨l, hl, hli, rfl⟩
        obtain ⟨m, hm, h2, h3⟩ := (hd.used i t ht _ n hn).1 h1
        have hm' := hgo.log.subset hm
        obtain ⟨ys, hy, hsm⟩ := hd'.right.signer m hm'
        rw [h2, ← hli, hx'] at hy
        cases hy
        rw [h3, nodeAt_strips, hn] at hsm
        rw [hn] at hsig
        rw [Option.map_some, Option.some.injEq] at hsig hsm
        have : m = l := by
          have h4 := hsm.symm.trans hsig
          simp only [Prod.mk.injEq] at h4
          cases m; cases l
          simp_all
        rw [← this]; exact hm

/-- C52: the signers of a node are listed once each, in increasing order of their addresses: entries with other lists are rejected. -/
theorem C52_sorted {lt : Addr → Addr → Bool} (htr : ∀ a b c, lt a b = true → lt b c = true → lt a c = true) {xs : List XDelegate} {t : DTracker}
    (h : trackerFromXdr lt xs = .ok t) : (t.kids.map DNode.addr).Pairwise (fun a b => lt a b = true) := by
  have hsort : ∀ l : List XDelegate, sorted lt l = true → (l.map (fun x => match x with | .mk a _ _ => a)).Pairwise (fun a b => lt a b = true) := by
    intro l
    induction l with
    | nil => intro _; exact List.Pairwise.nil
    | cons x l ih =>
      intro hs
      obtain ⟨a, s, n⟩ := x
      cases l with
      | nil => simp
      | cons y l =>
        obtain ⟨b, s', n'⟩ := y
        rw [sorted, Bool.and_eq_true] at hs
        have ih' := ih hs.2
        refine List.Pairwise.cons ?_ ih'
        intro d hd
        rw [List.map_cons, List.pairwise_cons] at ih'
        rcases List.mem_cons.1 hd with rfl | hd
        · exact hs.1
        · exact htr _ _ _ hs.1 (ih'.1 d hd)
  unfold trackerFromXdr at h
  by_cases hs : sorted lt xs = true
  · rw [if_pos hs] at h
    cases hn : nodesFromXdr lt xs with
    | error e => rw [hn] at h; cases h
    | ok ks =>
      rw [hn] at h; cases h
      have h1 := hsort xs hs
      rw [← (nodesFromXdr_strip lt xs ks hn).1, strips_eq, List.map_map] at h1
      have h2 : ((fun x => match x with | XDelegate.mk a _ _ => a) ∘ DNode.strip) = DNode.addr := by
        funext n; cases n; rfl
      rwa [h2] at h1
  · rw [if_neg hs] at h; cases h

namespace DelegateCase

/-- Contract 1 is the account of the only entry; it delegates to contract 2 and account 3, and contract 2 to account 4. -/
def signers : List XDelegate := [.mk (.account 3) 33 [], .mk (.contract 2) 22 [.mk (.account 4) 44 []]]

/-- Accounts before contracts, then by number. -/
def lt : Addr → Addr → Bool
  | .account a, .account b => decide (a < b)
  | .account _, .contract _ => true
  | .contract _, .account _ => false
  | .contract a, .contract b => decide (a < b)

def env : DEnv :=
  { entry := fun _ => { addr := .contract 1, sig := 11, payload := 100, context := 7 }
    account := fun id p sig => if sig = 11 * id ∧ p = 100 then .ok () else .error (.contract 5)
    nonce := fun _ => .ok () }

def start : DSt :=
  { trackers := [some { kids := [.mk (.account 3) 33 false [], .mk (.contract 2) 22 false [.mk (.account 4) 44 false []]], stack := [] }],
    verified := [false], frames := [], log := [] }

/-- `__check_auth` of contract 2. -/
def check2 : Nat → Nat → Nat → CProg := fun p sig _ =>
  if p = 100 ∧ sig = 22 then .delegate (.account 4) (fun _ _ _ => .ret) .ret else .fail (.contract 1)

/-- `__check_auth` of contract 1, which also calls a contract that fails. -/
def check1 : Nat → Nat → Nat → CProg := fun _ _ _ =>
  .delegate (.contract 2) check2 (.tryCall (.fail (.contract 9)) (fun _ => .delegate (.account 3) (fun _ _ _ => .ret) .ret))

example : Delegates.Spec.Fresh lt [some signers] start :=
  ⟨.cons ⟨_, rfl, rfl⟩ .nil, rfl, rfl, rfl⟩

/-- The transaction succeeds, with three delegated authentications. -/
example : (run env (.call (.auth 0 check1 .ret) .ret) false start).1.log =
    [⟨0, [0], .account 3, 33⟩, ⟨0, [1, 0], .account 4, 44⟩, ⟨0, [1], .contract 2, 22⟩] := by decide

def isOk : Res Unit → Bool
  | .ok _ => true
  | .error _ => false

example : isOk (run env (.call (.auth 0 check1 .ret) .ret) false start).2 = true := by decide

/-- The error of a contract that refuses is not shown. -/
example : (verify env start 0 (fun s => (s, .error (.contract 1)))).2 = .error (.host .auth .invalidAction) ∧
    (verify env start 0 (fun s => (s, .error (.host .budget .exceededLimit)))).2 = .error (.host .budget .exceededLimit) :=
  ⟨(C52_reported env rfl rfl).2 (fun h => by cases h), (C52_reported env rfl rfl).1 .budget⟩

/-- Using a signer twice fails, and so does a signer of another level. -/
example : isOk (run env (.auth 0 (fun _ _ _ => .delegate (.account 3) (fun _ _ _ => .ret) (.delegate (.account 3) (fun _ _ _ => .ret) .ret)) .ret) false start).2 = false := by
  decide
example : isOk (run env (.auth 0 (fun _ _ _ => .delegate (.account 4) (fun _ _ _ => .ret) .ret) .ret) false start).2 = false := by decide

end DelegateCase

end Soroban.Props
