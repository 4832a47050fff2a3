import Verif.Spec.RecordedAuth
/-!
C108: the authorization entries a simulation returns.
-/
namespace Soroban.Props
open Soroban Soroban.Auth Soroban.RecordedAuth Soroban.RecordedAuth.Spec

variable {X D : Type}

/-- The nonces of a list of trackers. -/
private def noncesOf (ts : List (RecordedAuth.Tracker X)) : List (Addr × Int) := ts.filterMap fun t => t.nonce.map fun n => (t.addr, n.1)

/-- What holds of the states of a simulation. -/
private def Fine (src : Option Addr) (live : Addr → Int → Bool) (st : State X) : Prop :=
  (∀ t ∈ st.trackers, (t.source = true ∧ src = some t.addr ∧ t.nonce = none) ∨
    (t.source = false ∧ src ≠ some t.addr ∧ ∃ n : Int, t.nonce = some (n, 0) ∧ 0 ≤ n ∧ n < 2 ^ 63)) ∧
  (noncesOf st.trackers).Nodup ∧
  (∀ p ∈ noncesOf st.trackers, live p.1 p.2 = false ∧ p ∈ st.nonces) ∧
  (∀ p ∈ st.nonces, p ∈ noncesOf st.trackers)

private theorem fine_ask {src : Option Addr} {live : Addr → Int → Bool} {st st' : State X} {a : Addr} {draw : Nat} {x : X}
    (hf : Fine src live st) (h : newTracker src live st a draw x = .ok st') : Fine src live st' := by
  obtain ⟨h1, h2, h3, h4⟩ := hf
  unfold newTracker at h
  split at h
  · rename_i hs
    cases h
    have e : noncesOf (st.trackers ++ [⟨a, true, none, x⟩]) = noncesOf st.trackers := by simp [noncesOf]
    refine ⟨fun t ht => ?_, e ▸ h2, e ▸ h3, e ▸ h4⟩
    rcases List.mem_append.mp ht with ht | ht
    · exact h1 t ht
    · rw [List.mem_singleton] at ht
      subst ht
      exact .inl ⟨rfl, hs, rfl⟩
  · rename_i hs
    dsimp only at h
    split at h
    · cases h
    · rename_i ns hc
      cases h
      unfold consume at hc
      split at hc
      · cases hc
      · rename_i hn
        cases hc
        simp only [Bool.or_eq_true, not_or, Bool.not_eq_true] at hn
        have hnot : (a, ((draw % 2 ^ 63 : Nat) : Int)) ∉ st.nonces := by
          intro hm
          have := List.contains_iff_mem.mpr hm
          rw [hn.2] at this
          cases this
        have e : noncesOf (st.trackers ++ [⟨a, false, some (((draw % 2 ^ 63 : Nat) : Int), 0), x⟩]) =
            noncesOf st.trackers ++ [(a, ((draw % 2 ^ 63 : Nat) : Int))] := by simp [noncesOf]
        refine ⟨fun t ht => ?_, ?_, ?_, ?_⟩
        · rcases List.mem_append.mp ht with ht | ht
          · exact h1 t ht
          · rw [List.mem_singleton] at ht
            subst ht
            exact .inr ⟨rfl, hs, _, rfl, by omega, by omega⟩
        · dsimp only
          rw [e, List.nodup_append]
          refine ⟨h2, List.nodup_cons.mpr ⟨by simp, List.nodup_nil⟩, fun p hp q hq => ?_⟩
          rw [List.mem_singleton] at hq
          subst hq
          rintro rfl
          exact hnot (h3 _ hp).2
        · dsimp only
          rw [e]
          intro p hp
          rcases List.mem_append.mp hp with hp | hp
          · exact ⟨(h3 p hp).1, List.mem_cons_of_mem _ (h3 p hp).2⟩
          · rw [List.mem_singleton] at hp
            subst hp
            exact ⟨hn.1, List.mem_cons_self ..⟩
        · dsimp only
          rw [e]
          intro p hp
          rcases List.mem_cons.mp hp with rfl | hp
          · exact List.mem_append_right _ (List.mem_cons_self ..)
          · exact List.mem_append_left _ (h4 p hp)

private theorem noncesOf_modify (g : X → X) : ∀ (i : Nat) (ts : List (RecordedAuth.Tracker X)),
    noncesOf (ts.modify i (fun t => { t with tree := g t.tree })) = noncesOf ts
  | _, [] => by simp
  | 0, t :: ts => by
    rw [List.modify_zero_cons]
    rfl
  | i + 1, t :: ts => by
    have ih := noncesOf_modify g i ts
    unfold noncesOf at ih ⊢
    rw [List.modify_succ_cons, List.filterMap_cons, List.filterMap_cons, ih]

private theorem mem_modify_tree (g : X → X) : ∀ (i : Nat) (ts : List (RecordedAuth.Tracker X)),
    ∀ t ∈ ts.modify i (fun t => { t with tree := g t.tree }), ∃ u ∈ ts, t.addr = u.addr ∧ t.source = u.source ∧ t.nonce = u.nonce
  | _, [], t, h => by simp at h
  | 0, u :: ts, t, h => by
    rw [List.modify_zero_cons] at h
    rcases List.mem_cons.mp h with rfl | h
    · exact ⟨u, List.mem_cons_self .., rfl, rfl, rfl⟩
    · exact ⟨t, List.mem_cons_of_mem _ h, rfl, rfl, rfl⟩
  | i + 1, u :: ts, t, h => by
    rw [List.modify_succ_cons] at h
    rcases List.mem_cons.mp h with rfl | h
    · exact ⟨t, List.mem_cons_self .., rfl, rfl, rfl⟩
    · obtain ⟨v, hv, e⟩ := mem_modify_tree g i ts t h
      exact ⟨v, List.mem_cons_of_mem _ hv, e⟩

private theorem fine_step {src : Option Addr} {live : Addr → Int → Bool} (s : Sim X) (e : Step X)
    (hf : Fine src live s.1 ∧ ∀ st ∈ s.2, Fine src live st) :
    Fine src live (step src live s e).1 ∧ ∀ st ∈ (step src live s e).2, Fine src live st := by
  obtain ⟨h1, h2⟩ := hf
  cases e with
  | ask a draw x =>
    unfold step
    dsimp only
    split
    · rename_i st h
      exact ⟨fine_ask h1 h, h2⟩
    · exact ⟨h1, h2⟩
  | grow i g =>
    refine ⟨⟨fun t ht => ?_, ?_, ?_, ?_⟩, h2⟩
    · obtain ⟨u, hu, e1, e2, e3⟩ := mem_modify_tree g i _ t ht
      rw [e1, e2, e3]
      exact h1.1 u hu
    · exact (noncesOf_modify g i _).symm ▸ h1.2.1
    · exact (noncesOf_modify g i _).symm ▸ h1.2.2.1
    · exact (noncesOf_modify g i _).symm ▸ h1.2.2.2
  | enter => exact ⟨h1, fun st hst => (List.mem_cons.mp hst).elim (fun h => h ▸ h1) (h2 st)⟩
  | leave => exact ⟨h1, fun st hst => h2 st (List.mem_of_mem_tail hst)⟩
  | fail =>
    unfold step
    dsimp only
    split
    · exact ⟨h1, h2⟩
    · rename_i st rest h
      exact ⟨h2 st (h ▸ List.mem_cons_self ..), fun u hu => h2 u (h ▸ List.mem_cons_of_mem _ hu)⟩

private theorem fine_run (src : Option Addr) (live : Addr → Int → Bool) (h : List (Step X)) : Fine src live (run src live h) := by
  have : ∀ (h : List (Step X)) (s : Sim X), (Fine src live s.1 ∧ ∀ st ∈ s.2, Fine src live st) →
      Fine src live (h.foldl (step src live) s).1 := by
    intro h
    induction h with
    | nil => exact fun s hs => hs.1
    | cons e h ih => exact fun s hs => ih _ (fine_step s e hs)
  exact this h _ ⟨⟨fun t ht => by simp at ht, List.nodup_nil, fun p hp => by simp [noncesOf] at hp, fun p hp => by simp at hp⟩,
    fun st hst => by simp at hst⟩

/-- The entries of trackers. -/
private theorem entries_of {src : Addr} (v2 : Bool) : ∀ ts : List (RecordedAuth.Tracker X),
    (∀ t ∈ ts, (t.source = true ∧ some src = some t.addr ∧ t.nonce = none) ∨
      (t.source = false ∧ some src ≠ some t.addr ∧ ∃ n : Int, t.nonce = some (n, 0) ∧ 0 ≤ n ∧ n < 2 ^ 63)) →
    ∃ es : List (RecordedAuth.Entry X D), toEntries v2 (ts.map payload) = .ok es ∧
      (es.map clearSignature).map (fun e => (owner src e.creds, e.tree)) = ts.map (fun t => (t.addr, t.tree)) ∧
      (∀ e ∈ es.map clearSignature, ToSign src v2 e.creds) ∧
      (es.map clearSignature).filterMap (fun e => ticket e.creds) = noncesOf ts ∧
      es = (es.map clearSignature).map (fun e => { e with creds := sign (.bytes (List.replicate 512 0)) e.creds })
  | [], _ => ⟨[], rfl, rfl, fun _ h => (by simp at h), rfl, rfl⟩
  | t :: ts, h => by
    obtain ⟨es, e1, e2, e3, e4, e5⟩ := entries_of v2 ts fun u hu => h u (List.mem_cons_of_mem _ hu)
    obtain ⟨a, source, nonce, tree⟩ := t
    rcases h _ (List.mem_cons_self ..) with ⟨h1, h2, h3⟩ | ⟨h1, h2, n, h3, h4, h5⟩
    · dsimp only at h1 h2 h3
      subst h1 h3
      cases h2
      refine ⟨⟨.source, tree⟩ :: es, ?_, ?_, ?_, ?_, ?_⟩
      · rw [List.map_cons, toEntries, e1]; rfl
      · simp only [List.map_cons]; rw [e2]; rfl
      · intro e he
        rcases List.mem_cons.mp he with rfl | he
        · trivial
        · exact e3 e he
      · exact e4
      · simp only [List.map_cons]; rw [← e5]; rfl
    · dsimp only at h1 h2 h3
      subst h1 h3
      have hne : a ≠ src := fun h => h2 (h ▸ rfl)
      cases v2
      · refine ⟨⟨.address ⟨a, n, 0, .bytes (List.replicate 512 0)⟩, tree⟩ :: es, ?_, ?_, ?_, ?_, ?_⟩
        · rw [List.map_cons, toEntries, e1]; rfl
        · simp only [List.map_cons]; rw [e2]; rfl
        · intro e he
          rcases List.mem_cons.mp he with rfl | he
          · exact ⟨rfl, hne, h4, h5, rfl, rfl⟩
          · exact e3 e he
        · have e : noncesOf (⟨a, false, some (n, 0), tree⟩ :: ts) = (a, n) :: noncesOf ts := rfl
          rw [e, ← e4]; rfl
        · simp only [List.map_cons]; rw [← e5]; rfl
      · refine ⟨⟨.addressV2 ⟨a, n, 0, .bytes (List.replicate 512 0)⟩, tree⟩ :: es, ?_, ?_, ?_, ?_, ?_⟩
        · rw [List.map_cons, toEntries, e1]; rfl
        · simp only [List.map_cons]; rw [e2]; rfl
        · intro e he
          rcases List.mem_cons.mp he with rfl | he
          · exact ⟨rfl, hne, h4, h5, rfl, rfl⟩
          · exact e3 e he
        · have e : noncesOf (⟨a, false, some (n, 0), tree⟩ :: ts) = (a, n) :: noncesOf ts := rfl
          rw [e, ← e4]; rfl
        · simp only [List.map_cons]; rw [← e5]; rfl

/-- **C108**. Whatever happens in a simulation that records authorization, it returns one entry for every recorded tree, in order, with that
tree and for its address, left for the user to sign. No two of the entries have the same address and nonce, and no nonce is in the ledger
already. -/
theorem C108_recorded_entries (src : Addr) (live : Addr → Int → Bool) (h : List (Step X)) (v2 : Bool) :
    ∃ out : Output X D, outputAuth (.recording v2) (run (some src) live h) = .ok out ∧
      out.returned.map (fun e => (owner src e.creds, e.tree)) = (run (some src) live h).trackers.map (fun t => (t.addr, t.tree)) ∧
      (∀ e ∈ out.returned, ToSign src v2 e.creds) ∧
      (out.returned.filterMap (fun e => ticket e.creds)).Nodup ∧
      (∀ p ∈ out.returned.filterMap (fun e => ticket e.creds), live p.1 p.2 = false) := by
  obtain ⟨f1, f2, f3, _⟩ := fine_run (some src) live h
  obtain ⟨es, e1, e2, e3, e4, _⟩ := entries_of (D := D) v2 _ f1
  refine ⟨⟨some es, es.map clearSignature⟩, ?_, e2, e3, ?_, ?_⟩
  · unfold outputAuth
    dsimp only
    rw [e1]; rfl
  · dsimp only
    rw [e4]; exact f2
  · dsimp only
    rw [e4]; exact fun p hp => (f3 p hp).1

/-- **C108**. The resources are those of the returned entries with signatures of 512 bytes. -/
theorem C108_metered_entries (src : Addr) (live : Addr → Int → Bool) (h : List (Step X)) (v2 : Bool) (out : Output X D)
    (ho : outputAuth (.recording v2) (run (some src) live h) = .ok out) :
    out.installed = some (out.returned.map fun e => { e with creds := sign (.bytes (List.replicate 512 0)) e.creds }) := by
  obtain ⟨es, e1, _, _, _, e5⟩ := entries_of (D := D) v2 _ (fine_run (some src) live h).1
  unfold outputAuth at ho
  dsimp only at ho
  rw [e1] at ho
  cases ho
  dsimp only
  rw [← e5]

/-- **C108**. With entries given by the user, those are returned as they are. -/
theorem C108_given_entries (es : List (RecordedAuth.Entry X D)) (st : State X) :
    outputAuth (.enforcing es) st = .ok ⟨none, es⟩ := rfl

private theorem body_keeps (src : Option Addr) (live : Addr → Int → Bool) {b : List (Step X)} (hb : Body b) :
    ∀ s : Sim X, (b.foldl (step src live) s).2 = s.2 := by
  induction hb with
  | nothing => exact fun _ => rfl
  | ask a draw x =>
    intro s
    simp only [List.foldl_cons, List.foldl_nil, step]
    split <;> rfl
  | grow i g => exact fun _ => rfl
  | call _ ih =>
    intro s
    rw [List.cons_append, List.foldl_cons, List.foldl_append, List.foldl_cons, List.foldl_nil]
    have e := ih (step src live s .enter)
    simp only [step] at e ⊢
    rw [e]; rfl
  | failed _ ih =>
    intro s
    rw [List.cons_append, List.foldl_cons, List.foldl_append, List.foldl_cons, List.foldl_nil]
    have e := ih (step src live s .enter)
    simp only [step] at e ⊢
    rw [e]
  | andThen _ _ ih1 ih2 =>
    intro s
    rw [List.foldl_append, ih2, ih1]

/-- **C108**. A call that fails leaves no entry behind: what is returned is what would be returned without the call. -/
theorem C108_failed_call (src : Option Addr) (live : Addr → Int → Bool) (h body after : List (Step X)) (hb : Body body) :
    run src live (h ++ (.enter :: body ++ [.fail]) ++ after) = run src live (h ++ after) := by
  have hs : ∀ s : Sim X, (Step.enter :: body ++ [Step.fail]).foldl (step src live) s = s := by
    intro s
    rw [List.cons_append, List.foldl_cons, List.foldl_append, List.foldl_cons, List.foldl_nil]
    have e := body_keeps src live hb (step src live s .enter)
    simp only [step] at e ⊢
    rw [e]
  unfold run
  rw [List.foldl_append, List.foldl_append, hs, ← List.foldl_append]

/-- **C108**. A request that makes a new tree adds one for its address, at the end, unless the random nonce is in the ledger or in a
recorded tree of the same address already: then nothing is added. -/
theorem C108_request (src : Addr) (live : Addr → Int → Bool) (h : List (Step X)) (a : Addr) (draw : Nat) (x : X) :
    let before := run (some src) live h
    let after := run (some src) live (h ++ [.ask a draw x])
    let taken := a ≠ src ∧ (live a (draw % 2 ^ 63 : Nat) = true ∨
      ∃ t ∈ before.trackers, t.addr = a ∧ ∃ l, t.nonce = some (((draw % 2 ^ 63 : Nat) : Int), l))
    (taken → after = before) ∧
    (¬ taken → after.trackers.map (fun t => (t.addr, t.tree)) = before.trackers.map (fun t => (t.addr, t.tree)) ++ [(a, x)]) := by
  intro before after taken
  obtain ⟨-, -, f3, f4⟩ := fine_run (some src) live h
  have hafter : after = match newTracker (some src) live before a draw x with
      | .ok st => st
      | .error _ => before := by
    show run _ _ _ = _
    unfold run
    rw [List.foldl_append, List.foldl_cons, List.foldl_nil]
    simp only [step]
    have : before = (h.foldl (step (some src) live) (⟨[], []⟩, [])).1 := rfl
    rw [this]
    split <;> (rename_i e; rw [e])
  have hmem : (a, ((draw % 2 ^ 63 : Nat) : Int)) ∈ before.nonces ↔
      ∃ t ∈ before.trackers, t.addr = a ∧ ∃ l, t.nonce = some (((draw % 2 ^ 63 : Nat) : Int), l) := by
    have : (a, ((draw % 2 ^ 63 : Nat) : Int)) ∈ before.nonces ↔ (a, ((draw % 2 ^ 63 : Nat) : Int)) ∈ noncesOf before.trackers :=
      ⟨f4 _, fun hp => (f3 _ hp).2⟩
    rw [this]
    unfold noncesOf
    simp only [List.mem_filterMap, Option.map_eq_some_iff, Prod.mk.injEq, Prod.exists]
    constructor
    · rintro ⟨t, ht, n, l, e, e1, e2⟩
      exact ⟨t, ht, e1, l, by rw [e, e2]⟩
    · rintro ⟨t, ht, e1, l, e⟩
      exact ⟨t, ht, _, l, e, e1, rfl⟩
  rw [hafter]
  unfold newTracker
  by_cases ha : a = src
  · subst ha
    rw [if_pos rfl]
    exact ⟨fun h => absurd rfl h.1, fun _ => by simp⟩
  · rw [if_neg (fun h => ha (Option.some.inj h).symm)]
    dsimp only
    unfold consume
    have htaken : taken ↔ (live a (draw % 2 ^ 63 : Nat) = true ∨ (a, ((draw % 2 ^ 63 : Nat) : Int)) ∈ before.nonces) := by
      rw [hmem]
      exact ⟨fun h => h.2, fun h => ⟨ha, h⟩⟩
    rw [htaken]
    by_cases hc : live a (draw % 2 ^ 63 : Nat) = true ∨ (a, ((draw % 2 ^ 63 : Nat) : Int)) ∈ before.nonces
    · rw [if_pos (by rw [Bool.or_eq_true, List.contains_iff_mem]; exact hc)]
      exact ⟨fun _ => rfl, fun h => absurd hc h⟩
    · rw [if_neg (by rw [Bool.or_eq_true, List.contains_iff_mem]; exact hc)]
      exact ⟨fun h => absurd h hc, fun _ => by simp⟩

/-- A simulation of account 1: a contract asks account 2, the source and account 2 again with the same random number, which fails; a call that
asks account 3 fails; account 2 is asked once more. -/
private def simulation : List (Step (List Nat)) :=
  [.ask (.account 2) 7 [10], .ask (.account 1) 8 [11], .ask (.account 2) 7 [12], .enter, .ask (.account 3) 9 [13], .fail,
    .ask (.account 2) (2 ^ 63 + 5) [14], .grow 0 (· ++ [20])]

example : (run (some (.account 1)) (fun _ _ => false) simulation).trackers.map (fun t => (t.addr, t.nonce, t.tree)) =
    [(.account 2, some (7, 0), [10, 20]), (.account 1, none, [11]), (.account 2, some (5, 0), [14])] := by decide +kernel

/-- Its entries. -/
example : (outputAuth (D := Unit) (.recording true) (run (some (.account 1)) (fun _ _ => false) simulation)).map Output.returned =
    .ok [⟨.addressV2 ⟨.account 2, 7, 0, .void⟩, [10, 20]⟩, ⟨.source, [11]⟩, ⟨.addressV2 ⟨.account 2, 5, 0, .void⟩, [14]⟩] := rfl

/-- The call that fails in it. -/
example : Body ([.ask (.account 3) 9 [13]] : List (Step (List Nat))) := .ask ..

end Soroban.Props
