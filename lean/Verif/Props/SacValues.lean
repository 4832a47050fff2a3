import Verif.Lemmas.SacTotal
import Verif.Props.Sac
/-! C85, C86: calls of the asset contract and its events, as values. -/
namespace Soroban.Props
open Soroban Soroban.Spec Soroban.Sac.Spec Soroban.ContractTypes Soroban.ContractTypes.Spec Soroban.SacValues Soroban.SacValues.Spec
open Soroban.Auth (Addr)
open Soroban.Storage (Store)
open Soroban.Sac hiding Led call

variable {objs objs' : List HostObj} {fn : Nat} {n : List Nat} {args : List Nat} {ss : List ScVal}

/-- C85: a call is understood exactly when its name and arguments are those of a function of the interface, and as that function with
these arguments. -/
theorem C85_calls {c : SacValues.Call} (hok : ObjsOk objs) (hfn : Sound objs fn ∧ Denotes objs fn (.symbol n))
    (ha : List.Forall₂ (fun v s => Sound objs v ∧ Denotes objs v s) args ss) : decode objs fn args = .ok c ↔ Means n ss c :=
  ⟨fun h => (decode_means hok hfn ha h).1, means_decode hok hfn ha⟩

/-- C85, the interface is unambiguous: a name with arguments means one call at most. -/
theorem C85_unique {c c' : SacValues.Call} (hok : ObjsOk objs) (hfn : Sound objs fn ∧ Denotes objs fn (.symbol n))
    (ha : List.Forall₂ (fun v s => Sound objs v ∧ Denotes objs v s) args ss) (h : Means n ss c) (h' : Means n ss c') : c = c' :=
  Except.ok.inj ((means_decode hok hfn ha h).symm.trans (means_decode hok hfn ha h'))

theorem call_events {E : SEnv} {o : Op} {st : Store SKey SVal} {r : Sac.Ret} {t : Tok} (hA : AuthOk E) (hS : StOk E st) (hf : OpFits o)
    (h : exec E o { st := st } = .ok (r, t)) : (∀ e ∈ t.events, EvFits e) ∧ t.events.length ≤ 1 := by
  obtain ⟨L', as, es, h1, h2⟩ := exec_step hA hS h
  have he := h2.events
  rw [List.append_nil] at he
  rw [he]
  exact opStep_events h1 hf

theorem means_mux {o : Op} {mux : Option Nat} (h : Means n ss (.op o mux)) : ∀ i, mux = some i → ∃ k, muxed i k ∈ ss := by
  intro i hi
  cases h <;> first | (cases hi; done) | skip
  cases hi
  exact ⟨_, List.mem_cons_of_mem _ List.mem_cons_self⟩

/-- What a successful call did: what it meant, what it returned and what it published. -/
theorem call_done {E : SEnv} {d : Nat} {nm sy : List Nat} {st st' : Store SKey SVal} {v : Nat} {es : List (Nat × Nat)} (hA : AuthOk E)
    (hS : StOk E st) (hok : ObjsOk objs) (hfn : Is objs fn (.symbol n)) (ha : List.Forall₂ (Is objs) args ss)
    (hm : ∀ i k, muxed i k ∈ ss → i < 2 ^ 64) (h : call E d nm sy objs fn args st = .ok (objs', v, es, st')) (hl : objs'.length ≤ 2 ^ 31) :
    (∃ o mux r, Means n ss (.op o mux) ∧ Sac.call E o st = (st', .ok r) ∧ ((∀ x, r = .amount x → Fits x) → Is objs' v (retOf r)) ∧
      List.Forall₂ (Published objs' nm mux) es (Spec.Call.events ⟨E, o, st⟩).reverse) ∨
    (es = [] ∧ st' = st ∧ ((Means n ss .decimals ∧ Is objs' v (.u32 7)) ∨ (Means n ss .name ∧ Is objs' v (.string nm)) ∨
      (Means n ss .symbol ∧ Is objs' v (.string sy)))) := by
  unfold SacValues.call at h
  obtain ⟨c, h1, h⟩ := bind_ok.mp h
  obtain ⟨hc, hf⟩ := decode_means hok hfn ha h1
  cases c with
  | op o mux =>
    obtain ⟨⟨r, t⟩, h2, h⟩ := bind_ok.mp h
    obtain ⟨⟨o1, es1⟩, h3, h⟩ := bind_ok.mp h
    obtain ⟨⟨o2, v2⟩, h4, h⟩ := bind_ok.mp h
    cases h
    dsimp only at *
    have g := newRet_grown h4
    obtain ⟨k1, k2⟩ := newEvents_made (fun i hi => let ⟨k, hk⟩ := means_mux hc i hi; hm i k hk) hok
      (fun e he => (call_events hA hS (hf o mux rfl) h2).1 e (List.mem_reverse.1 he)) h3 (Nat.le_trans (grown_len g) hl)
    refine Or.inl ⟨o, mux, r, hc, ?_, fun hx => (newRet_made k1 hx h4 hl).is, ?_⟩
    · unfold Sac.call
      rw [h2]
    · unfold Spec.Call.events
      dsimp only
      rw [h2]
      exact k2.imp fun _ _ hp => ⟨hp.1.grow g, hp.2.grow g⟩
  | initAsset => cases h
  | decimals =>
    obtain ⟨⟨o1, v1⟩, h2, h⟩ := bind_ok.mp h
    cases h
    exact Or.inr ⟨rfl, rfl, Or.inl ⟨hc, (newLeaf_made hok (l := .u32 7) (show 7 < 2 ^ 32 by decide) h2 hl).is⟩⟩
  | name =>
    obtain ⟨⟨o1, v1⟩, h2, h⟩ := bind_ok.mp h
    cases h
    exact Or.inr ⟨rfl, rfl, Or.inr (Or.inl ⟨hc, (newLeaf_made hok (l := .str nm) trivial h2 hl).is⟩)⟩
  | symbol =>
    obtain ⟨⟨o1, v1⟩, h2, h⟩ := bind_ok.mp h
    cases h
    exact Or.inr ⟨rfl, rfl, Or.inr (Or.inr ⟨hc, (newLeaf_made hok (l := .str sy) trivial h2 hl).is⟩)⟩

/-- C85: a successful call did what its name and arguments mean, to the ledger as well, and returned the value of the result; the rest
are the queries of the metadata, which change and publish nothing. -/
theorem C85_results {E : SEnv} {d : Nat} {nm sy : List Nat} {st st' : Store SKey SVal} {v : Nat} {es : List (Nat × Nat)} (hA : AuthOk E)
    (hS : StOk E st) (hok : ObjsOk objs) (hfn : Sound objs fn ∧ Denotes objs fn (.symbol n))
    (ha : List.Forall₂ (fun v s => Sound objs v ∧ Denotes objs v s) args ss) (hm : ∀ i k, muxed i k ∈ ss → i < 2 ^ 64)
    (h : call E d nm sy objs fn args st = .ok (objs', v, es, st')) (hl : objs'.length ≤ 2 ^ 31) :
    (∃ o mux r, Means n ss (.op o mux) ∧ Sac.call E o st = (st', .ok r) ∧ ((∀ x, r = .amount x → Fits x) → Denotes objs' v (retOf r))) ∨
    (es = [] ∧ st' = st ∧ ((Means n ss .decimals ∧ Denotes objs' v (.u32 7)) ∨ (Means n ss .name ∧ Denotes objs' v (.string nm)) ∨
      (Means n ss .symbol ∧ Denotes objs' v (.string sy)))) := by
  rcases call_done hA hS hok hfn ha hm h hl with ⟨o, mux, r, h1, h2, h3, _⟩ | ⟨h1, h2, h3⟩
  · exact Or.inl ⟨o, mux, r, h1, h2, fun hx => (h3 hx).2⟩
  · refine Or.inr ⟨h1, h2, ?_⟩
    rcases h3 with h3 | h3 | h3
    · exact Or.inl ⟨h3.1, h3.2.2⟩
    · exact Or.inr (Or.inl ⟨h3.1, h3.2.2⟩)
    · exact Or.inr (Or.inr ⟨h3.1, h3.2.2⟩)

/-- C85, nothing else is needed: a call that means an operation which succeeds on the ledger succeeds, with that effect, given room for a
few objects. -/
theorem C85_succeeds {E : SEnv} {d : Nat} {nm sy : List Nat} {st st' : Store SKey SVal} {o : Op} {mux : Option Nat} {r : Sac.Ret}
    (hA : AuthOk E) (hS : StOk E st) (hok : ObjsOk objs) (hfn : Sound objs fn ∧ Denotes objs fn (.symbol n))
    (ha : List.Forall₂ (fun v s => Sound objs v ∧ Denotes objs v s) args ss) (hm : ∀ i k, muxed i k ∈ ss → i < 2 ^ 64)
    (hc : Means n ss (.op o mux)) (h : Sac.call E o st = (st', .ok r)) (hl : objs.length + 13 ≤ 2 ^ 31) :
    ∃ objs' v es, call E (d + 1) nm sy objs fn args st = .ok (objs', v, es, st') := by
  have hd := means_decode hok hfn ha hc
  have hf := (decode_means hok hfn ha hd).2 o mux rfl
  unfold Sac.call at h
  cases he : exec E o { st := st } with
  | error e => rw [he] at h; cases h
  | ok p =>
    obtain ⟨r', t⟩ := p
    rw [he] at h
    cases h
    obtain ⟨e1, e2⟩ := call_events hA hS hf he
    have key : ∃ o1 es, newEvents (d + 1) nm mux objs t.events.reverse = .ok (o1, es) ∧ o1.length ≤ objs.length + 12 := by
      match hte : t.events with
      | [] => exact ⟨objs, [], rfl, by omega⟩
      | [e] =>
        obtain ⟨o1, ⟨tp, x⟩, h1, h2⟩ := newEvent_makes hok (d := d) (nm := nm) (mux := mux) (e1 e (by rw [hte]; simp))
          (fun i hi => let ⟨k, hk⟩ := means_mux hc i hi; hm i k hk) (by omega)
        exact ⟨o1, [(tp, x)], bind_ok.mpr ⟨_, h1, bind_ok.mpr ⟨_, rfl, rfl⟩⟩, h2⟩
      | _ :: _ :: _ => rw [hte] at e2; simp at e2
    obtain ⟨o1, es, h1, h2⟩ := key
    obtain ⟨o2, v, h3, _⟩ := newRet_makes (objs := o1) (r := r) (by omega)
    exact ⟨o2, v, es, bind_ok.mpr ⟨_, hd, bind_ok.mpr ⟨_, he, bind_ok.mpr ⟨_, h1, bind_ok.mpr ⟨_, h3, rfl⟩⟩⟩⟩⟩

/-- C86: what a successful call publishes are the events of the operation, in the form of the interface: the topics name what happened,
to whom and of which asset, the data is the amount or the like, together with the identifier if the receiver was given with one. -/
theorem C86_events {E : SEnv} {d : Nat} {nm sy : List Nat} {st st' : Store SKey SVal} {v : Nat} {es : List (Nat × Nat)} (hA : AuthOk E)
    (hS : StOk E st) (hok : ObjsOk objs) (hfn : Sound objs fn ∧ Denotes objs fn (.symbol n))
    (ha : List.Forall₂ (fun v s => Sound objs v ∧ Denotes objs v s) args ss) (hm : ∀ i k, muxed i k ∈ ss → i < 2 ^ 64)
    (h : call E d nm sy objs fn args st = .ok (objs', v, es, st')) (hl : objs'.length ≤ 2 ^ 31) :
    (∀ o mux, Means n ss (.op o mux) →
      List.Forall₂ (fun p e => Denotes objs' p.1 (.vec (some (topics nm e))) ∧ Denotes objs' p.2 (dataOf mux e)) es
        (Spec.Call.events ⟨E, o, st⟩).reverse) ∧ ((∀ o mux, ¬ Means n ss (.op o mux)) → es = []) := by
  rcases call_done hA hS hok hfn ha hm h hl with ⟨o, mux, r, h1, h2, _, h3⟩ | ⟨h1, h2, h3⟩
  · refine ⟨fun o' mux' h' => ?_, fun h' => absurd h1 (h' o mux)⟩
    cases C85_unique hok hfn ha h' h1
    exact h3.imp fun _ _ hp => ⟨hp.1.2, hp.2.2⟩
  · refine ⟨fun o mux h' => ?_, fun _ => h1⟩
    rcases h3 with h3 | h3 | h3 <;> cases C85_unique hok hfn ha h' h3.1

theorem amountWith_inj {a b : Int} {m m' : Option Nat} (h : amountWith a m = amountWith b m') : a = b ∧ m = m' := by
  cases m with
  | none =>
    cases m' with
    | none => exact ⟨int128_inj h, rfl⟩
    | some i => simp only [amountWith, int128, struct] at h; cases h
  | some i =>
    cases m' with
    | none => simp only [amountWith, int128, struct] at h; cases h
    | some j =>
      simp only [amountWith, struct, List.map_cons, List.map_nil, ScVal.map.injEq, Option.some.injEq, List.cons.injEq, Prod.mk.injEq,
        ScVal.u64.injEq] at h
      exact ⟨int128_inj h.1.2, by rw [h.2.1.2]⟩

/-- C86: an event can be told from what is published: which asset, what happened, to whom, how much and, for transfers to an address
with an identifier, which. -/
theorem C86_injective {nm nm' : List Nat} {m m' : Option Nat} {e e' : TokEvent} (ht : topics nm e = topics nm' e')
    (hd : dataOf m e = dataOf m' e') : nm = nm' ∧ e = e' ∧ (Tells e → m = m') := by
  have hs : ∀ {a b : List Nat} {x y : List ScVal}, ScVal.symbol a :: x = ScVal.symbol b :: y → a = b ∧ x = y := by
    intro a b x y h
    injection h with h1 h2
    injection h1 with h1
    exact ⟨h1, h2⟩
  have hc : ∀ {a b : ScVal} {x y : List ScVal}, a :: x = b :: y → a = b ∧ x = y := by
    intro a b x y h
    injection h with h1 h2
    exact ⟨h1, h2⟩
  have hn : ∀ {a b : List Nat}, [ScVal.string a] = [ScVal.string b] → a = b := by
    intro a b h
    injection h with h1
    injection h1
  cases e <;> cases e' <;> simp only [topics, dataOf] at ht hd <;>
    first
      | exact absurd (hs ht).1 (by decide)
      | skip
  · obtain ⟨h1, h2⟩ := hc (hs ht).2
    obtain ⟨h3, h4⟩ := hc h2
    simp only [ScVal.vec.injEq, Option.some.injEq, List.cons.injEq, ScVal.u32.injEq] at hd
    rw [address_inj h1, address_inj h3, int128_inj hd.1, hd.2.1]
    exact ⟨hn h4, rfl, fun h => h.elim⟩
  · obtain ⟨h1, h2⟩ := hc (hs ht).2
    obtain ⟨h3, h4⟩ := hc h2
    obtain ⟨h5, h6⟩ := amountWith_inj hd
    rw [address_inj h1, address_inj h3, h5]
    exact ⟨hn h4, rfl, fun _ => h6⟩
  · obtain ⟨h1, h2⟩ := hc (hs ht).2
    obtain ⟨h5, h6⟩ := amountWith_inj hd
    rw [address_inj h1, h5]
    exact ⟨hn h2, rfl, fun _ => h6⟩
  · obtain ⟨h1, h2⟩ := hc (hs ht).2
    rw [address_inj h1, int128_inj hd]
    exact ⟨hn h2, rfl, fun h => h.elim⟩
  · obtain ⟨h1, h2⟩ := hc (hs ht).2
    rw [address_inj h1, int128_inj hd]
    exact ⟨hn h2, rfl, fun h => h.elim⟩
  · obtain ⟨h1, h2⟩ := hc (hs ht).2
    injection hd with hd
    rw [address_inj h1, hd]
    exact ⟨hn h2, rfl, fun h => h.elim⟩
  · obtain ⟨h1, h2⟩ := hc (hs ht).2
    rw [address_inj h1, address_inj hd]
    exact ⟨hn h2, rfl, fun h => h.elim⟩

/-- Makes host values of the name and the arguments. -/
def c85Vals : List HostObj → List ScVal → Option (List HostObj × List Nat)
  | objs, [] => some (objs, [])
  | objs, s :: ss => match toVal 9 objs s with
    | .ok (o, v) => (c85Vals o ss).map fun p => (p.1, v :: p.2)
    | .error _ => none

/-- Reads the events. -/
def c85Read (o : List HostObj) : List (Nat × Nat) → Option (List (ScVal × ScVal))
  | [] => some []
  | (a, b) :: es => match fromVal false o 9 a, fromVal false o 9 b, c85Read o es with
    | .ok x, .ok y, some l => some ((x, y) :: l)
    | _, _, _ => none

/-- A call on the ledger of the example in Props/Sac: what it returns and the events it publishes. -/
def c85Run (n : List Nat) (ss : List ScVal) : Option (ScVal × List (ScVal × ScVal)) :=
  match c85Vals [] (.symbol n :: ss) with
  | some (o, f :: args) => match SacValues.call (caseE 10) 9 [65] [66] o f args (caseSt caseMap) with
    | .ok (o', v, es, _) => match fromVal false o' 9 v, c85Read o' es with
      | .ok x, some l => some (x, l)
      | _, _ => none
    | .error _ => none
  | _ => none

/-- The same as XDR. -/
def c85Bytes (n : List Nat) (ss : List ScVal) : Option (List (List Nat × List Nat)) :=
  (c85Run n ss).map fun p => p.2.map fun q => (Xdr.write q.1, Xdr.write q.2)

/-- Alice sends Bob 30. -/
example : c85Run (txt "transfer") [address (.account 2), address (.account 3), int128 30] = some (.void,
    [(.vec (some [.symbol (txt "transfer"), address (.account 2), address (.account 3), .string [65]]), int128 30)]) := by rfl
/-- With an identifier. -/
example : c85Bytes (txt "transfer") [address (.account 2), muxed 77 3, int128 30] = some
    [(Xdr.write (.vec (some [.symbol (txt "transfer"), address (.account 2), address (.account 3), .string [65]])),
      Xdr.write (struct [(txt "amount", int128 30), (txt "to_muxed_id", .u64 77)]))] := by decide +kernel
/-- To the issuer: the units are burned and the identifier is not told. -/
example : c85Run (txt "transfer") [address (.account 2), muxed 77 1, int128 30] = some (.void,
    [(.vec (some [.symbol (txt "burn"), address (.account 2), .string [65]]), int128 30)]) := by rfl
/-- From the issuer: the units are minted and the identifier is told. -/
example : c85Bytes (txt "transfer") [address (.account 1), muxed 77 3, int128 30] = some
    [(Xdr.write (.vec (some [.symbol (txt "mint"), address (.account 3), .string [65]])),
      Xdr.write (struct [(txt "amount", int128 30), (txt "to_muxed_id", .u64 77)]))] := by decide +kernel
example : c85Run (txt "balance") [address (.account 2)] = some (int128 100, []) := by rfl
example : c85Run (txt "name") [] = some (.string [65], []) := by rfl
example : c85Run (txt "decimals") [] = some (.u32 7, []) := by rfl
/-- Calls that are not understood: a superfluous argument, an amount of another type, a receiver with an identifier where there can
be none, and a function that does not exist. -/
example : c85Run (txt "balance") [address (.account 2), .void] = none := by rfl
example : c85Run (txt "transfer") [address (.account 2), address (.account 3), .u64 30] = none := by rfl
example : c85Run (txt "mint") [muxed 77 3, int128 30] = none := by rfl
example : c85Run (txt "steal") [] = none := by rfl
/-- The asset was set up when the contract was deployed, so that cannot happen again. -/
example : c85Run (txt "init_asset") [.bytes [1]] = none := by rfl

theorem c85Vals_is : ∀ {ss : List ScVal} {objs objs' : List HostObj} {vs : List Nat}, c85Vals objs ss = some (objs', vs) →
    (∃ e, objs' = objs ++ e) ∧ (ObjsOk objs → (∀ s ∈ ss, XdrOk s) → objs'.length ≤ 2 ^ 31 → ObjsOk objs' ∧ List.Forall₂ (Is objs') vs ss)
  | [], objs, _, _, h => by cases h; exact ⟨⟨[], by simp⟩, fun ho _ _ => ⟨ho, .nil⟩⟩
  | s :: ss, objs, objs', vs, h => by
    unfold c85Vals at h
    cases h1 : toVal 9 objs s with
    | error e => rw [h1] at h; cases h
    | ok p =>
      obtain ⟨o, v⟩ := p
      rw [h1] at h
      dsimp only at h
      cases h2 : c85Vals o ss with
      | none => rw [h2] at h; cases h
      | some q =>
        rw [h2] at h
        obtain ⟨o2, ws⟩ := q
        cases h
        obtain ⟨g, k⟩ := c85Vals_is h2
        obtain ⟨e1, r1⟩ := toVal_prefix h1
        obtain ⟨e2, r2⟩ := g
        refine ⟨⟨e1 ++ e2, by rw [r2, r1, List.append_assoc]⟩, fun ho hx hl => ?_⟩
        have hl : o2.length ≤ 2 ^ 31 := hl
        obtain ⟨c1, c2⟩ := toVal_conv ho (hx s List.mem_cons_self) (by rw [r2, List.length_append] at hl; omega) h1
        obtain ⟨d1, d2⟩ := k c1 (fun x hm => hx x (List.mem_cons_of_mem _ hm)) hl
        exact ⟨d1, .cons (Is.grow ⟨c2.sound, _, c2.back⟩ ⟨e2, r2⟩) d2⟩

/-- The hypotheses of the theorems are met by the second call. -/
example : ∃ objs fn args, ObjsOk objs ∧ (Sound objs fn ∧ Denotes objs fn (.symbol (txt "transfer"))) ∧
    List.Forall₂ (fun v s => Sound objs v ∧ Denotes objs v s) args [address (.account 2), muxed 77 3, int128 30] ∧
    (∀ i k, muxed i k ∈ [address (.account 2), muxed 77 3, int128 30] → i < 2 ^ 64) ∧
    Means (txt "transfer") [address (.account 2), muxed 77 3, int128 30] (.op (.transfer (.account 2) (.account 3) 30) (some 77)) ∧
    AuthOk (caseE 10) ∧ StOk (caseE 10) (caseSt caseMap) ∧ (∃ st', Sac.call (caseE 10) (.transfer (.account 2) (.account 3) 30)
      (caseSt caseMap) = (st', .ok .unit)) ∧ objs.length + 13 ≤ 2 ^ 31 := by
  cases h : c85Vals [] [.symbol (txt "transfer"), address (.account 2), muxed 77 3, int128 30] with
  | none => exact absurd (congrArg Option.isSome h) (by decide +kernel)
  | some p =>
    obtain ⟨o, vs⟩ := p
    have hl : (c85Vals [] [.symbol (txt "transfer"), address (.account 2), muxed 77 3, int128 30]).map (fun p => p.1.length) = some 2 := by
      decide +kernel
    rw [h] at hl
    have hn : o.length = 2 := Option.some.inj hl
    obtain ⟨h1, h2⟩ := (c85Vals_is h).2 (fun _ _ hm => by simp at hm) (by
      intro s hs
      simp only [List.mem_cons, List.not_mem_nil, or_false] at hs
      rcases hs with h | h | h | h <;> rw [h]
      · exact ⟨trivial, fun x hx => by cases hx⟩
      · exact ⟨trivial, fun x hx => by cases hx⟩
      · exact ⟨trivial, fun x hx => by cases hx⟩
      · exact ⟨by simp only [int128, InRange]; decide, fun x hx => by cases hx⟩) (by rw [hn]; decide)
    cases h2 with
    | @cons v s vs ss h2 h3 =>
      refine ⟨o, v, vs, h1, h2, h3, ?_, .transferMuxed _ 77 3 _, caseE_auth 10, (caseCall_valid 10 .admin caseMap rfl rfl).store,
        ⟨_, rfl⟩, by rw [hn]; decide⟩
      intro i k hm
      simp only [List.mem_cons, List.not_mem_nil, or_false, muxed, address, int128] at hm
      rcases hm with h | h | h
      · cases h
      · injection h with h; injection h with h; rw [h]; decide
      · cases h

end Soroban.Props
