import Verif.Spec.Events
import Verif.Lemmas.Objects
import Mathlib.Data.List.Forall2
/-! C41: the contract events of a transaction. -/
namespace Soroban.Props
open Soroban Soroban.Events Soroban.Events.Spec

namespace EventsAux
variable {C D X : Type}

/-- The contract events in a buffer, with their flags. -/
def proj : Buf C D → List ((Kind × C) × Bool)
  | [] => []
  | (.contract ty c, f) :: rest => ((ty, c), f) :: proj rest
  | (.diagnostic _, _) :: rest => proj rest

theorem proj_append (a b : Buf C D) : proj (a ++ b) = proj a ++ proj b := by
  induction a with
  | nil => rfl
  | cons x xs ih =>
    obtain ⟨e, f⟩ := x
    cases e <;> simp [proj, ih]

theorem proj_failed (a : Buf C D) : proj (a.map (fun e => (e.1, true))) = (proj a).map (fun e => (e.1, true)) := by
  induction a with
  | nil => rfl
  | cons x xs ih =>
    obtain ⟨e, f⟩ := x
    cases e <;> simp [proj, ih]

theorem proj_rollback (a b : Buf C D) : proj (rollback (a ++ b) a.length) = proj a ++ (proj b).map (fun e => (e.1, true)) := by
  simp [rollback, proj_append, proj_failed]

/-- The contract events that a history adds. -/
def added : Hist C D → List ((Kind × C) × Bool)
  | .done => []
  | .emit ty c next => ((ty, c), false) :: added next
  | .diag _ _ next => added next
  | .call body ok next => (if ok then added body else (added body).map (fun e => (e.1, true))) ++ added next

theorem run_ext (debug : Bool) (h : Hist C D) : ∀ b, ∃ b', run debug h b = b ++ b' ∧ proj b' = added h := by
  induction h with
  | done => intro b; exact ⟨[], by simp [run], rfl⟩
  | emit ty c next ih =>
    intro b
    obtain ⟨b', h1, h2⟩ := ih (record debug true b (.contract ty c))
    refine ⟨(.contract ty c, false) :: b', ?_, ?_⟩
    · rw [run, h1]; simp [record]
    · simp [proj, added, h2]
  | diag w d next ih =>
    intro b
    obtain ⟨b', h1, h2⟩ := ih (record debug w b (.diagnostic d))
    by_cases hd : (debug && w) = true
    · refine ⟨(.diagnostic d, false) :: b', ?_, ?_⟩
      · rw [run, h1]; simp [record, withDebugMode, hd]
      · simp [proj, added, h2]
    · refine ⟨b', ?_, ?_⟩
      · rw [run, h1]; simp [record, withDebugMode, hd]
      · simp [added, h2]
  | call body ok next ih1 ih2 =>
    intro b
    obtain ⟨b1, h1, h2⟩ := ih1 b
    cases ok with
    | true =>
      obtain ⟨b2, h3, h4⟩ := ih2 (run debug body b)
      refine ⟨b1 ++ b2, ?_, ?_⟩
      · rw [run]; simp only [if_true]; rw [h3, h1, List.append_assoc]
      · simp [proj_append, added, h2, h4]
    | false =>
      obtain ⟨b2, h3, h4⟩ := ih2 (rollback (run debug body b) b.length)
      refine ⟨b1.map (fun e => (e.1, true)) ++ b2, ?_, ?_⟩
      · rw [run]; simp only [Bool.false_eq_true, if_false]; rw [h3, h1, rollback]; simp
      · simp [proj_append, proj_failed, added, h2, h4]

/-- Converting the contract events alone. -/
def conv (f : C → Res X) : List ((Kind × C) × Bool) → Res (List (HostEvent X))
  | [] => .ok []
  | ((ty, c), b) :: rest => do
    let x ← f c
    let r ← conv f rest
    return ⟨ty, x, b⟩ :: r

theorem encode_externalize (T : ToXdr C D X) (debug : Bool) (b : Buf C D) :
    (do let evs ← externalize T debug b; return encodeContractEvents evs) =
    (do let evs ← conv T.contract (proj b); return encodeContractEvents evs : Res (List X)) := by
  induction b with
  | nil => rfl
  | cons x xs ih =>
    obtain ⟨e, f⟩ := x
    cases e with
    | contract ty c =>
      simp only [externalize, proj, conv]
      cases T.contract c with
      | error e => rfl
      | ok x =>
        cases h1 : externalize T debug xs <;> cases h2 : conv T.contract (proj xs) <;> rw [h1, h2] at ih
        · cases ih; rfl
        · cases ih
        · cases ih
        · simp only [bind, Except.bind, pure, Except.pure] at ih ⊢
          simp only [encodeContractEvents, Except.ok.injEq] at ih ⊢
          simp only [List.filter_cons]
          split
          · simp only [List.map_cons, ih]
          · exact ih
    | diagnostic d =>
      simp only [externalize, proj]
      rw [← ih]
      cases externalize T debug xs with
      | error e => rfl
      | ok r =>
        simp only [bind, Except.bind, pure, Except.pure]
        cases debug with
        | false => rfl
        | true =>
          cases T.diagnostic d with
          | error e => rfl
          | ok x => simp [encodeContractEvents]

theorem externalize_ok (T : ToXdr C D X) (debug : Bool) (b : Buf C D) :
    (do let _ ← externalize T debug b; return ([] : List X)) = (do let _ ← conv T.contract (proj b); return [] : Res (List X)) := by
  induction b with
  | nil => rfl
  | cons x xs ih =>
    obtain ⟨e, f⟩ := x
    cases e with
    | contract ty c =>
      simp only [externalize, proj, conv]
      cases T.contract c with
      | error e => rfl
      | ok x =>
        cases h1 : externalize T debug xs <;> cases h2 : conv T.contract (proj xs) <;> rw [h1, h2] at ih
        · cases ih; rfl
        · cases ih
        · cases ih
        · rfl
    | diagnostic d =>
      simp only [externalize, proj]
      rw [← ih]
      cases externalize T debug xs <;> rfl

theorem transactionEvents_eq (T : ToXdr C D X) (debug : Bool) (h : Hist C D) (ok : Bool) :
    transactionEvents T debug h ok =
      (do let evs ← conv T.contract (added (.call h ok .done)); return if ok then encodeContractEvents evs else []) := by
  obtain ⟨b', h1, h2⟩ := run_ext debug (.call h ok .done) []
  unfold transactionEvents
  rw [h1, List.nil_append]
  cases ok with
  | true => simp only [if_true]; rw [encode_externalize, h2]
  | false => simp only [Bool.false_eq_true, if_false]; rw [externalize_ok, h2]

theorem added_erase (h : Hist C D) : added (erase h) = added h := by
  induction h with
  | done => rfl
  | emit ty c next ih => simp [erase, added, ih]
  | diag w d next ih => simp [erase, added, ih]
  | call body ok next ih1 ih2 => simp [erase, added, ih1, ih2]

theorem conv_append (f : C → Res X) (l l' : List ((Kind × C) × Bool)) {r : List (HostEvent X)} (h : conv f (l ++ l') = .ok r) :
    ∃ r1 r2, conv f l = .ok r1 ∧ conv f l' = .ok r2 ∧ r = r1 ++ r2 := by
  induction l generalizing r with
  | nil => exact ⟨[], r, rfl, h, rfl⟩
  | cons x xs ih =>
    obtain ⟨⟨ty, c⟩, b⟩ := x
    simp only [List.cons_append, conv] at h ⊢
    cases hx : f c with
    | error e => rw [hx] at h; cases h
    | ok x =>
      rw [hx] at h
      cases hr : conv f (xs ++ l') with
      | error e => simp only [hr, bind, Except.bind] at h; cases h
      | ok r' =>
        obtain ⟨r1, r2, e1, e2, e3⟩ := ih hr
        simp only [hr, bind, Except.bind, pure, Except.pure, Except.ok.injEq] at h
        refine ⟨⟨ty, x, b⟩ :: r1, r2, ?_, e2, ?_⟩
        · simp [e1, bind, Except.bind, pure, Except.pure]
        · rw [← h, e3]; rfl

theorem conv_failed (f : C → Res X) (l : List ((Kind × C) × Bool)) {r : List (HostEvent X)}
    (h : conv f (l.map (fun e => (e.1, true))) = .ok r) : encodeContractEvents r = [] := by
  induction l generalizing r with
  | nil => cases h; rfl
  | cons x xs ih =>
    obtain ⟨⟨ty, c⟩, b⟩ := x
    simp only [List.map_cons, conv] at h
    cases hx : f c with
    | error e => rw [hx] at h; cases h
    | ok x =>
      rw [hx] at h
      cases hr : conv f (xs.map (fun e => (e.1, true))) with
      | error e => simp only [hr, bind, Except.bind] at h; cases h
      | ok r' =>
        simp only [hr, bind, Except.bind, pure, Except.pure, Except.ok.injEq] at h
        subst h
        have := ih hr
        simpa [encodeContractEvents] using this

theorem encode_append (a b : List (HostEvent X)) : encodeContractEvents (a ++ b) = encodeContractEvents a ++ encodeContractEvents b := by
  simp [encodeContractEvents]

theorem conv_kept (f : C → Res X) (h : Hist C D) (hn : NoFakes h) : ∀ {r : List (HostEvent X)}, conv f (added h) = .ok r →
    List.Forall₂ (fun c x => f c = .ok x) (kept h) (encodeContractEvents r) := by
  induction h with
  | done => intro r hr; cases hr; exact .nil
  | emit ty c next ih =>
    intro r hr
    simp only [added, conv] at hr
    cases hx : f c with
    | error e => rw [hx] at hr; cases hr
    | ok x =>
      rw [hx] at hr
      cases hr' : conv f (added next) with
      | error e => simp only [hr', bind, Except.bind] at hr; cases hr
      | ok r' =>
        simp only [hr', bind, Except.bind, pure, Except.pure, Except.ok.injEq] at hr
        subst hr
        have h1 := ih hn.2 hr'
        have h2 : encodeContractEvents (⟨ty, x, false⟩ :: r') = x :: encodeContractEvents r' := by
          have : ty ≠ .diagnostic := hn.1
          simp [encodeContractEvents, this]
        rw [h2]
        exact .cons hx h1
  | diag w d next ih => intro r hr; exact ih hn hr
  | call body ok next ih1 ih2 =>
    intro r hr
    simp only [added] at hr
    obtain ⟨r1, r2, e1, e2, rfl⟩ := conv_append f _ _ hr
    rw [encode_append]
    simp only [kept]
    refine List.rel_append ?_ (ih2 hn.2 e2)
    cases ok with
    | true => exact ih1 hn.1 e1
    | false =>
      rw [conv_failed f _ e1]
      exact .nil

theorem conv_isOk (f : C → Res X) (l : List ((Kind × C) × Bool)) : (∃ r, conv f l = .ok r) ↔ ∀ e ∈ l, ∃ x, f e.1.2 = .ok x := by
  induction l with
  | nil => exact ⟨fun _ e he => (by cases he), fun _ => ⟨[], rfl⟩⟩
  | cons x xs ih =>
    obtain ⟨⟨ty, c⟩, b⟩ := x
    simp only [conv, List.mem_cons, forall_eq_or_imp]
    rw [← ih]
    cases hx : f c with
    | error e => exact ⟨fun ⟨r, hr⟩ => (by cases hr), fun ⟨⟨x, hx⟩, _⟩ => (by cases hx)⟩
    | ok x =>
      cases hr : conv f xs with
      | error e => exact ⟨fun ⟨r, hr⟩ => (by cases hr), fun ⟨_, ⟨x, hx⟩⟩ => (by cases hx)⟩
      | ok r => exact ⟨fun _ => ⟨⟨x, rfl⟩, r, rfl⟩, fun _ => ⟨_, rfl⟩⟩

theorem added_emitted (h : Hist C D) : (added h).map (fun e => e.1.2) = emitted h := by
  induction h with
  | done => rfl
  | emit ty c next ih => simp [added, emitted, ih]
  | diag w d next ih => simp [added, emitted, ih]
  | call body ok next ih1 ih2 =>
    cases ok <;> simp [added, emitted, ← ih1, ← ih2]

end EventsAux
open EventsAux

variable {C D X : Type}

/-- The contract events that a successful transaction returns are, in order, those that were emitted outside of failed calls:
nothing is lost, added, or reordered. -/
theorem C41_events (T : ToXdr C D X) (debug : Bool) (h : Hist C D) (hn : NoFakes h) {out : List X}
    (hr : transactionEvents T debug h true = .ok out) :
    List.Forall₂ (fun c x => T.contract c = .ok x) (kept h) out := by
  rw [transactionEvents_eq] at hr
  cases hc : conv T.contract (added (.call h true .done)) with
  | error e => rw [hc] at hr; cases hr
  | ok r =>
    rw [hc] at hr
    have := conv_kept T.contract (.call h true .done) ⟨hn, trivial⟩ hc
    simp only [bind, Except.bind, pure, Except.pure, if_true, Except.ok.injEq] at hr
    subst hr
    simpa [kept] using this

/-- Diagnostics make no difference: whether they are enabled, which of them there are, and whether recording or converting
them works. -/
theorem C41_diagnostics (T T' : ToXdr C D X) (hT : T.contract = T'.contract) (debug debug' : Bool) (h h' : Hist C D) (hh : erase h = erase h')
    (ok : Bool) : transactionEvents T debug h ok = transactionEvents T' debug' h' ok := by
  have hadd : added (.call h ok .done) = added (.call h' ok .done) := by
    have h1 : added h = added h' := by rw [← added_erase h, hh, added_erase]
    simp only [added, h1]
  rw [transactionEvents_eq, transactionEvents_eq, hT, hadd]

/-- Returning the events fails only if some event emitted by a contract cannot be converted. -/
theorem C41_succeeds (T : ToXdr C D X) (debug : Bool) (h : Hist C D) (ok : Bool) :
    (∃ out, transactionEvents T debug h ok = .ok out) ↔ ∀ c ∈ emitted h, ∃ x, T.contract c = .ok x := by
  have h1 := conv_isOk T.contract (added (.call h ok .done))
  have h2 : (∃ out, transactionEvents T debug h ok = .ok out) ↔ ∃ r, conv T.contract (added (.call h ok .done)) = .ok r := by
    rw [transactionEvents_eq]
    cases conv T.contract (added (.call h ok .done)) with
    | error e => exact ⟨fun ⟨r, hr⟩ => (by cases hr), fun ⟨r, hr⟩ => (by cases hr)⟩
    | ok r => exact ⟨fun _ => ⟨r, rfl⟩, fun _ => ⟨_, rfl⟩⟩
  rw [h2, h1]
  have h3 := added_emitted (.call h ok .done)
  have h4 : emitted (.call h ok .done) = emitted h := by simp [emitted]
  rw [h4] at h3
  rw [← h3]
  simp only [List.mem_map]
  exact ⟨fun hx c ⟨e, he, hc⟩ => hc ▸ hx e he, fun hx e he => hx _ ⟨e, he, rfl⟩⟩

/-- A failed transaction has no events, even if diagnostics are enabled. -/
theorem C41_failed (T : ToXdr C D X) (debug : Bool) (h : Hist C D) {out : List X} (hr : transactionEvents T debug h false = .ok out) :
    out = [] := by
  rw [transactionEvents_eq] at hr
  cases hc : conv T.contract (added (.call h false .done)) with
  | error e => rw [hc] at hr; cases hr
  | ok r => rw [hc] at hr; cases hr; rfl


/-- An event of the buffer as it is shown. -/
private def asShown (e : Event C D × Bool) : (C ⊕ D) × Bool :=
  (match e.1 with | .contract _ c => .inl c | .diagnostic d => .inr d, !e.2)

private theorem shown_false (h : Hist C D) : shown false h = (shown true h).map fun e => (e.1, false) := by
  have key : ∀ (h : Hist C D) (b : Bool), shown false h = (shown b h).map fun e => (e.1, false) := by
    intro h
    induction h with
    | done => exact fun _ => rfl
    | emit ty c next ih => intro b; simp only [shown, List.map_cons]; rw [← ih b]
    | diag w d next ih => intro b; cases w <;> simp [shown, ← ih b]
    | call body ok next ih1 ih2 =>
      intro b
      simp only [shown, List.map_append, Bool.false_and]
      rw [← ih1 (b && ok), ← ih2 b]
  exact key h true

private theorem run_shown (h : Hist C D) : ∀ b, ∃ b', run true h b = b ++ b' ∧ b'.map asShown = shown true h := by
  induction h with
  | done => exact fun b => ⟨[], by simp [run], rfl⟩
  | emit ty c next ih =>
    intro b
    obtain ⟨b', h1, h2⟩ := ih (b ++ [(.contract ty c, false)])
    exact ⟨(.contract ty c, false) :: b', by rw [run, record, h1]; simp, by rw [List.map_cons, h2]; rfl⟩
  | diag w d next ih =>
    intro b
    cases w with
    | false =>
      obtain ⟨b', h1, h2⟩ := ih b
      exact ⟨b', by rw [run, record]; simpa [withDebugMode] using h1, by rw [h2]; rfl⟩
    | true =>
      obtain ⟨b', h1, h2⟩ := ih (b ++ [(.diagnostic d, false)])
      exact ⟨(.diagnostic d, false) :: b', by rw [run, record]; simpa [withDebugMode] using h1, by rw [List.map_cons, h2]; rfl⟩
  | call body ok next ih1 ih2 =>
    intro b
    obtain ⟨b1, h1, h2⟩ := ih1 b
    cases ok with
    | true =>
      obtain ⟨b2, h3, h4⟩ := ih2 (run true body b)
      refine ⟨b1 ++ b2, ?_, ?_⟩
      · rw [run]; simp only [if_true]; rw [h3, h1, List.append_assoc]
      · simp [shown, h2, h4]
    | false =>
      obtain ⟨b2, h3, h4⟩ := ih2 (rollback (run true body b) b.length)
      refine ⟨b1.map (fun e => (e.1, true)) ++ b2, ?_, ?_⟩
      · rw [run]; simp only [Bool.false_eq_true, if_false]; rw [h3, h1, rollback]; simp
      · rw [List.map_append, h4]
        simp only [shown, Bool.true_and]
        rw [shown_false, ← h2, List.map_map, List.map_map]
        rfl

private theorem extract_shown (T : ToXdr C D X) : ∀ (b : Buf C D) {evs : List (HostEvent X)}, externalize T true b = .ok evs →
    extractDiagnosticEvents evs = (b.map asShown).filterMap fun e =>
      (match e.1 with | .inl c => (T.contract c).toOption | .inr d => (T.diagnostic d).toOption).map fun x => (x, e.2)
  | [], evs, h => by cases h; rfl
  | (.contract ty c, f) :: rest, evs, h => by
    rw [externalize] at h
    obtain ⟨x, h1, h⟩ := bind_ok.mp h
    obtain ⟨r, h2, h⟩ := bind_ok.mp h
    cases h
    have ih := extract_shown T rest h2
    simp only [extractDiagnosticEvents] at ih
    simp [extractDiagnosticEvents, asShown, h1, Except.toOption, ih]
  | (.diagnostic d, f) :: rest, evs, h => by
    rw [externalize] at h
    obtain ⟨r, h2, h⟩ := bind_ok.mp h
    have ih := extract_shown T rest h2
    simp only [extractDiagnosticEvents] at ih
    simp only [if_true] at h
    cases hd : T.diagnostic d with
    | error e =>
      rw [hd] at h
      cases h
      simp [extractDiagnosticEvents, asShown, hd, Except.toOption, ih]
    | ok x =>
      rw [hd] at h
      cases h
      simp [extractDiagnosticEvents, asShown, hd, Except.toOption, ih]

/-- C41: with diagnostics enabled, what is shown are all contract events and all diagnostics that could be recorded and converted, in
order, each with whether all calls around it succeeded. -/
theorem C41_shown (T : ToXdr C D X) (h : Hist C D) (ok : Bool) {evs : List (HostEvent X)}
    (he : externalize T true (run true (.call h ok .done) []) = .ok evs) :
    extractDiagnosticEvents evs = (shown ok h).filterMap fun e =>
      (match e.1 with | .inl c => (T.contract c).toOption | .inr d => (T.diagnostic d).toOption).map fun x => (x, e.2) := by
  obtain ⟨b', h1, h2⟩ := run_shown (.call h ok .done) []
  rw [h1, List.nil_append] at he
  rw [extract_shown T b' he, h2]
  simp only [shown, Bool.true_and, List.append_nil]

/-- A contract emits 1, logs, calls another which emits 2, calls a third one which emits 3 and fails, emits 4, and the failing call
of a fourth contract contains a successful call that emits 5; then the contract emits 6. -/
def eventsCase : Hist Nat String :=
  .emit .contract 1 <| .diag true "a" <|
  .call (.emit .contract 2 <| .call (.diag true "b" <| .emit .contract 3 .done) false <| .emit .system 4 .done) true <|
  .call (.call (.emit .contract 5 .done) true .done) false <|
  .diag false "c" <| .emit .contract 6 .done

example : kept eventsCase = [1, 2, 4, 6] ∧ emitted eventsCase = [1, 2, 3, 4, 5, 6] := by decide
example : shown true eventsCase = [(.inl 1, true), (.inr "a", true), (.inl 2, true), (.inr "b", false), (.inl 3, false), (.inl 4, true),
    (.inl 5, false), (.inl 6, true)] := by decide
example : NoFakes eventsCase := by simp [NoFakes, eventsCase]
example : transactionEvents ⟨fun c => .ok (toString c), fun d => .ok d⟩ true eventsCase true = .ok ["1", "2", "4", "6"] := rfl
example : transactionEvents ⟨fun c => .ok (toString c), fun _ => .error (.host .budget .exceededLimit)⟩ true eventsCase true = .ok ["1", "2", "4", "6"] := rfl
example : (externalize ⟨fun c => .ok (toString c), fun d => .ok d⟩ true (run true eventsCase [])).map extractDiagnosticEvents
    = .ok [("1", true), ("a", true), ("2", true), ("b", false), ("3", false), ("4", true), ("5", false), ("6", true)] := rfl

end Soroban.Props
