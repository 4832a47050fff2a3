import Verif.Lemmas.HostReach
/-!
A concrete transaction, to show that the hypotheses of C22-C29 can be met. Account 9 has signed for a call to contract 1 that
calls contract 2. Contract 1 calls contract 2 with `try_call`; that call uses the authorization, writes and emits an event, but
fails. Contract 1 then calls contract 2 again, which uses the same authorization and succeeds.
-/
namespace Soroban.Props.HostCase
open Soroban Soroban.Auth Soroban.Host Soroban.Host.Spec Soroban.Storage Soroban.Storage.Spec

def env : HEnv :=
  { sto := { keys := keysOf, li := { seq := 100, minTemp := 16, minPersistent := 50, maxTtl := 1000 }, feature := true }
    accountCheck := fun _ _ => .ok ()
    newId := fun p _ => p
    hashOf := some
    hasCtor := fun _ => true }

def fp : FMap LKey Access :=
  [(.inst 1, .readOnly), (.inst 2, .readOnly), (.code 7, .readOnly), (.account 9, .readOnly), (.nonce (.account 9) 5, .readWrite),
   (.data (.contract 2) (.val 3) .persistent, .readWrite)]

def map : FMap LKey (Option (Entry LVal)) :=
  [(.inst 1, some (.inst (.wasm 7) [], some 200)), (.inst 2, some (.inst (.wasm 7) [], some 200)),
   (.code 7, some (.code 1, some 200)), (.account 9, some (.classic 0, none)), (.nonce (.account 9) 5, none),
   (.data (.contract 2) (.val 3) .persistent, none)]

def st : Store LKey LVal := { footprint := fp, mode := .enforcing, map := map }

/-- The functions `a` and `b`. -/
def fnA : Name := [97]
def fnB : Name := [98]

/-- What account 9 has signed. -/
def tree : Inv := .mk (.call (.contract 1) fnA []) [.mk (.call (.contract 2) fnB [4]) [] false] false

/-- The authorization entry of account 9, with nonce 5, valid until ledger 300. -/
def entry : Acct :=
  { addr := .account 9, tr := Tracker.new tree, source := false, verified := false, nonce := some (5, 300), borrowed := false }

/-- What contract 2 does before it returns or fails. -/
def bodyB (last : Prog) : Prog :=
  .auth (.account 9) [4] (fun _ => .ret .void) (.data (.put (.val 3) 11 .persistent) (fun _ => .event 6 last))

/-- What contract 1 does. -/
def bodyA : Prog :=
  .auth (.account 9) [] (fun _ => .ret .void)
    (.tryCall 2 fnB (bodyB (.fail (.contract 13))) (fun r =>
      match r with
      | .err (.contract 13) => .call 2 fnB (bodyB (.ret (.other 8))) (fun v => .ret v)
      | _ => .fail (.contract 1)))

theorem get_mem {K V : Type} [DecidableEq K] {m : FMap K V} {k : K} {v : V} (h : m.get k = some v) : (k, v) ∈ m := FMap.mem_of_get h

theorem start : TxStart env st [entry] := by
  refine ⟨rfl, ⟨_, .enforcing (fp := fp) (map := map) ⟨?_, ?_⟩, rfl⟩, ⟨?_, ?_, ?_⟩⟩
  · have : ∀ x ∈ fp, (map.get x.1).isSome = true := by decide
    intro k hk
    obtain ⟨v, hv⟩ := Option.isSome_iff_exists.mp hk
    exact this (k, v) (get_mem hv)
  · have : ∀ x ∈ map, (match x.2 with | some (_, some l) => decide (100 ≤ l) | some (_, none) => (keysOf.durability x.1).isNone | none => true) = true := by
      decide
    intro k e he v l d h hd
    have hx := this (k, e) (get_mem he)
    subst h
    cases l with
    | none =>
      simp only at hx
      have hd' : keysOf.durability k = some d := hd
      rw [hd'] at hx; cases hx
    | some l => exact ⟨l, rfl, of_decide_eq_true hx⟩
  · intro a ha
    simp only [List.mem_singleton] at ha
    subst ha
    refine ⟨tree, rfl, ?_⟩
    intro p n hn
    match p with
    | [] => cases hn; rfl
    | [0] => cases hn; rfl
    | 0 :: _ :: _ => simp [tree, Inv.at?, Inv.subs] at hn
    | (_ + 1) :: _ => simp [tree, Inv.at?, Inv.subs] at hn
  · intro a ha; simp only [List.mem_singleton] at ha; subst ha; rfl
  · intro a ha; simp only [List.mem_singleton] at ha; subst ha; rfl

/-- The transaction. -/
def tx : HostFn := .invoke 1 fnA bodyA

/-- The result of the transaction. -/
def result : Host × Res RVal := invoke env (Host.init st [entry]) tx

/-- It succeeds; only the second call counts: one event, one value written, two authorizations used, the nonce used. -/
example : result.2 = .ok (.other 8) := by rfl
example : successfulEvents result.1.events = [⟨2, .contract 6⟩] ∧ result.1.events.length = 2 := by decide
example : visible env result.1 (.data (.contract 2) (.val 3) .persistent) = some (.data 11, some 149) := by decide
example : visible env result.1 (.nonce (.account 9) 5) = some (.void, some 300) := by decide
example : result.1.auth.uses.map (fun u => (u.entry, u.path)) = [(0, [0]), (0, [])] := by decide
example : result.1.trace = [[(some 2, fnB), (some 1, fnA), (none, [])], [(some 2, fnB), (some 1, fnA), (none, [])],
    [(some 1, fnA), (none, [])], [(none, [])]] := by decide

/-- The state in which contract 1 starts to run. -/
def s0 : Host := (pushContext (Host.init st [entry]) hostFrame).1
def s1 : Host := (pushContext s0 { cid := some 1, fn := fnA, inst := [], storage := none }).1

theorem reach1 : Reach env st [entry] s1 :=
  .called (s := s0) .start (by decide) (by decide) (by decide) (.wasm (ex := .wasm 7) (h := 7) rfl rfl rfl)

/-- The state of contract 1 after its `require_auth`. -/
def s2 : Host := (requireAuth env s1 (.account 9) [] (fun _ => run env (.ret .void))).1

theorem reach2 : Reach env st [entry] s2 :=
  .ran (p := .auth (.account 9) [] (fun _ => .ret .void) (.ret .void)) (v := .void) reach1 rfl

/-- The state in which contract 2 runs. -/
def s3 : Host := (pushContext s2 { cid := some 2, fn := fnB, inst := [], storage := none }).1

theorem reach3 : Reach env st [entry] s3 :=
  .called (s := s2) reach2 (by decide) (by decide) (by decide) (.wasm (ex := .wasm 7) (h := 7) rfl rfl rfl)

/-! A history: this transaction, and one at ledger 301, when the nonce has expired, with an entry that has the same nonce. -/

/-- The ledger before the first transaction, and the one after it, in which all entries but nonces live longer. -/
def ledger0 : Ledger LKey LVal := fun k => (map.get k).getD none
def ledger1 : Ledger LKey LVal := fun k => match (result.1.st.map.get k).getD none, k with
  | some (v, some l), .nonce _ _ => some (v, some l)
  | some (v, some l), _ => some (v, some (l + 1000))
  | e, _ => e

def tx1 : Tx := { E := env, st := st, orig := [entry], hf := tx }

def env2 : HEnv := { env with sto := { env.sto with li := { env.sto.li with seq := 301 } } }
def map2 : FMap LKey (Option (Entry LVal)) := map.map (fun x => (x.1, view env2.sto x.1 (ledger1 x.1)))
def entry2 : Acct := { entry with nonce := some (5, 400) }
def tx2 : Tx := { E := env2, st := { footprint := fp, mode := .enforcing, map := map2 }, orig := [entry2], hf := tx }

theorem start2 : TxStart env2 tx2.st [entry2] := by
  refine ⟨rfl, ⟨_, .enforcing (fp := fp) (map := map2) ⟨?_, ?_⟩, rfl⟩, ⟨?_, ?_, ?_⟩⟩
  · have : ∀ x ∈ fp, (map2.get x.1).isSome = true := by decide
    intro k hk
    obtain ⟨v, hv⟩ := Option.isSome_iff_exists.mp hk
    exact this (k, v) (get_mem hv)
  · have : ∀ x ∈ map2, (match x.2 with | some (_, some l) => decide (301 ≤ l) | some (_, none) => (keysOf.durability x.1).isNone | none => true) = true := by
      decide
    intro k e he v l d h hd
    have hx := this (k, e) (get_mem he)
    subst h
    cases l with
    | none =>
      simp only at hx
      have hd' : keysOf.durability k = some d := hd
      rw [hd'] at hx; cases hx
    | some l => exact ⟨l, rfl, of_decide_eq_true hx⟩
  · intro a ha
    simp only [List.mem_singleton] at ha
    subst ha
    obtain ⟨r, h1, h2⟩ := start.auth.tr entry (List.mem_singleton.mpr rfl)
    exact ⟨r, h1, h2⟩
  · intro a ha; simp only [List.mem_singleton] at ha; subst ha; rfl
  · intro a ha; simp only [List.mem_singleton] at ha; subst ha; rfl

theorem on1 : tx1.On ledger0 := by
  refine ⟨start, rfl, ?_⟩
  intro k e he
  have : ∀ x ∈ map, x.2 = view env.sto x.1 (ledger0 x.1) := by decide
  exact this (k, e) (get_mem he)

theorem on2 : tx2.On ledger1 := by
  refine ⟨start2, rfl, ?_⟩
  intro k e he
  have : ∀ x ∈ map2, x.2 = view env2.sto x.1 (ledger1 x.1) := by decide
  exact this (k, e) (get_mem he)

theorem commit1 : CommitTo tx1.result.1.st ledger0 ledger1 := by
  have hfp : tx1.result.1.st.footprint = fp := rfl
  have hmap : ∀ x ∈ tx1.result.1.st.map, fp.get x.1 ≠ none := by decide
  have hmap0 : ∀ x ∈ map, fp.get x.1 ≠ none := by decide
  intro k
  have hl : ledger1 k = match (tx1.result.1.st.map.get k).getD none, k with
    | some (v, some l), .nonce _ _ => some (v, some l)
    | some (v, some l), _ => some (v, some (l + 1000))
    | e, _ => e := rfl
  rw [hfp]
  have hno : map.get k = none → ledger0 k = none := by intro h; simp only [ledger0, h]; rfl
  cases hg : tx1.result.1.st.map.get k with
  | none =>
    have h1 : ledger1 k = none := by rw [hl, hg]; rfl
    have h0 : map.get k = none := by
      cases h : map.get k with
      | none => rfl
      | some e =>
        have : ∀ x ∈ map, (tx1.result.1.st.map.get x.1).isSome = true := by decide
        have h2 := this (k, e) (get_mem h)
        rw [hg] at h2; cases h2
    have : ledger1 k = ledger0 k := by rw [h1, hno h0]
    split <;> exact this
  | some e =>
    rw [if_neg (hmap (k, e) (get_mem hg))]
    rw [hg] at hl
    match e with
    | none => exact hl
    | some (v, none) => exact hl
    | some (v, some l) =>
      cases k with
      | nonce a n => exact ⟨l, hl, Nat.le_refl _⟩
      | _ => exact ⟨l + 1000, hl, Nat.le_add_right _ _⟩

/-- The history up to the second transaction, whose result is then committed in some way. -/
theorem history : ∃ L, History [(100, some tx1), (301, some tx2)] ledger0 L := by
  have hc : ∃ L, CommitTo tx2.result.1.st ledger1 L := by
    refine ⟨fun k => if tx2.result.1.st.footprint.get k = none then ledger1 k else match tx2.result.1.st.map.get k with
      | none => ledger1 k
      | some e => e, ?_⟩
    intro k
    simp only
    split
    · rfl
    · cases hg : tx2.result.1.st.map.get k with
      | none => rfl
      | some e =>
        match e with
        | none => rfl
        | some (v, none) => rfl
        | some (v, some l) => exact ⟨l, rfl, Nat.le_refl _⟩
  obtain ⟨L, hc⟩ := hc
  refine ⟨L, .cons (.success (v := .other 8) on1 rfl rfl commit1) (by decide) (.cons (.success (v := .other 8) on2 rfl rfl hc) (by simp) .nil)⟩

theorem consumes1 : tx1.Consumes 0 (.account 9) 5 300 :=
  ⟨entry, rfl, rfl, rfl, rfl, (by decide : ∃ u ∈ tx1.result.1.auth.uses, u.entry = 0)⟩
theorem consumes2 : tx2.Consumes 0 (.account 9) 5 400 :=
  ⟨entry2, rfl, rfl, rfl, rfl, (by decide : ∃ u ∈ tx2.result.1.auth.uses, u.entry = 0)⟩

end Soroban.Props.HostCase
