import Verif.Lemmas.Contexts
import Verif.Props.Preimage
/-! C83 (what an account contract is shown) and C84 (what a contract authorizes in its own name). -/
namespace Soroban.Props
open Soroban.Spec hiding Shows
open Soroban.Preimage Soroban.Preimage.Spec Soroban.ContractTypes Soroban.ContractTypes.Spec

section C83
variable {E : Cfg} {objs objs' later objs3 : List HostObj}

/-- C83: the contexts an account contract is given are the functions of the tree its owner signed, each shown once and in order, a
function before those it calls; whichever of them are used up, and whatever was added to the object table since the entry was read. -/
theorem C83_contexts {d d' v : Nat} {x : XInv} {i j : AInv} (hok : ObjsOk objs) (hf : InvFits x) (hc : AllCallable x)
    (hw : ∀ f ∈ fns x, OwnerOk f) (hx : invFromXdr d objs x = .ok (objs', i)) (hj : Same i j) (hl : ObjsOk (objs' ++ later))
    (h : contexts d' (objs' ++ later) j = .ok (objs3, v)) (h3 : objs3.length ≤ 2 ^ 31) :
    ∃ l, Shows (fns x) l ∧ Denotes objs3 v (.vec (some l)) := by
  have hlen : objs'.length ≤ objs3.length := by
    unfold contexts at h
    obtain ⟨⟨o1, v1⟩, h1, h⟩ := bind_ok.mp h
    have := grown_len (grown_trans (addObj_grown h1) (pushContexts_grown h))
    rw [List.length_append] at this
    omega
  have hi := (invFromXdr_is hok hf hc hw hx (by omega)).same hj
  obtain ⟨l, h4, m⟩ := contexts_made hl (InvIs.grow ⟨later, rfl⟩ hi) h h3
  rw [fns_plain, shows_plain] at h4
  exact ⟨l, h4, m.is.2⟩

/-- C83, what is shown determines the function: the called contract, the function's name and the arguments of a call; the salt, the
executable and the arguments of a creation. -/
theorem C83_injective {f g : XFn} {s : ScVal} (hf : contextOf f = some s) (hg : contextOf g = some s) : Alike f g := by
  have key : ∀ {id id' e e' as as'} {s : ScVal}, creationOf id e as = some s → creationOf id' e' as' = some s →
      ∃ d d' salt e1 as1, XFn.createV2 ⟨id, e, as⟩ = .createV2 ⟨.address d salt, e1, as1⟩ ∧
        XFn.createV2 ⟨id', e', as'⟩ = .createV2 ⟨.address d' salt, e1, as1⟩ := by
    intro id id' e e' as as' s h h'
    cases id with
    | asset => cases h
    | address d salt =>
    cases id' with
    | asset => cases h'
    | address d' salt' =>
      rw [creationOf] at h h'
      cases he : execOf e with
      | none => rw [he] at h; cases h
      | some t =>
      cases he' : execOf e' with
      | none => rw [he'] at h'; cases h'
      | some t' =>
        rw [he, Option.map_some] at h
        rw [he', Option.map_some] at h'
        rw [← h'] at h
        have hs : t = t' ∧ salt = salt' ∧ as = as' := by
          cases as <;> cases as'
          · simp only [Option.some.injEq, tagged, struct, List.map_cons, List.map_nil, ScVal.vec.injEq, ScVal.map.injEq, List.cons.injEq, Prod.mk.injEq,
              ScVal.bytes.injEq] at h
            exact ⟨h.2.1.1.2, h.2.1.2.1.2, rfl⟩
          · simp only [Option.some.injEq, tagged, ScVal.vec.injEq, List.cons.injEq, ScVal.symbol.injEq] at h
            exact absurd h.1 (by decide)
          · simp only [Option.some.injEq, tagged, ScVal.vec.injEq, List.cons.injEq, ScVal.symbol.injEq] at h
            exact absurd h.1 (by decide)
          · simp only [Option.some.injEq, tagged, struct, List.map_cons, List.map_nil, ScVal.vec.injEq, ScVal.map.injEq, List.cons.injEq, Prod.mk.injEq,
              ScVal.bytes.injEq] at h
            exact ⟨h.2.1.2.1.2, h.2.1.2.2.1.2, by rw [h.2.1.1.2.1, h.2.1.1.2.2]⟩
        obtain ⟨rfl, rfl, rfl⟩ := hs
        have hee : e = e' := by
          cases e <;> cases e' <;> first | (cases he; done) | (cases he'; done) | skip
          · rw [← he'] at he
            simp only [execOf, Option.some.injEq, tagged, ScVal.vec.injEq, List.cons.injEq, ScVal.bytes.injEq] at he
            rw [he.2.1]
          · rw [← he'] at he
            simp only [execOf, Option.some.injEq, tagged, ScVal.vec.injEq, List.cons.injEq, ScVal.symbol.injEq] at he
            exact absurd he.1 (by decide)
          · rw [← he'] at he
            simp only [execOf, Option.some.injEq, tagged, ScVal.vec.injEq, List.cons.injEq, ScVal.symbol.injEq] at he
            exact absurd he.1 (by decide)
          · rw [← he'] at he
            simp only [execOf, Option.some.injEq, tagged, struct, List.map_cons, List.map_nil, ScVal.vec.injEq, ScVal.map.injEq, List.cons.injEq, Prod.mk.injEq,
              ScVal.address.injEq, ScVal.string.injEq] at he
            rw [he.2.1.1.2, he.2.1.2.1.2]
        subst hee
        exact ⟨d, d', salt, e, as, rfl, rfl⟩
  have mixed : ∀ {c : ScAddr} {n : List Nat} {as : List ScVal} {id e as'} {s : ScVal}, contextOf (.call c n as) = some s →
      creationOf id e as' = some s → False := by
    intro c n as id e as' s h h'
    cases id with
    | asset => cases h'
    | address d salt =>
      rw [creationOf] at h'
      cases he : execOf e with
      | none => rw [he] at h'; cases h'
      | some t =>
        rw [he, Option.map_some, ← h] at h'
        cases as' <;>
        · simp only [contextOf, Option.some.injEq, tagged, ScVal.vec.injEq, List.cons.injEq, ScVal.symbol.injEq] at h'
          exact absurd h'.1 (by decide)
  cases f <;> cases g
  · rw [← hg] at hf
    simp only [contextOf, Option.some.injEq, tagged, struct, List.map_cons, List.map_nil, ScVal.vec.injEq, ScVal.map.injEq, List.cons.injEq, Prod.mk.injEq,
      ScVal.address.injEq, ScVal.symbol.injEq] at hf
    exact ⟨hf.2.1.2.1.2, hf.2.1.2.2.1.2, hf.2.1.1.2⟩
  · exact (mixed hf hg).elim
  · exact (mixed hf hg).elim
  · exact (mixed hg hf).elim
  · exact key hf hg
  · exact key hf hg
  · exact (mixed hg hf).elim
  · exact key hf hg
  · exact key hf hg

/-- C83, no hidden function: two trees that are shown alike have as many functions, which are alike one by one. -/
theorem C83_same_functions {fs gs : List XFn} {l : List ScVal} (hf : Shows fs l) (hg : Shows gs l) : List.Forall₂ Alike fs gs := by
  induction hf generalizing gs with
  | nil => cases hg; exact .nil
  | cons h _ ih => cases hg with
    | cons h' hg => exact .cons (C83_injective h h') (ih hg)

/-- C83, what is not shown is refused: no contexts are made for a tree with the creation of an asset contract. -/
theorem C83_refused {d d' : Nat} {x : XInv} {i j : AInv} (hok : ObjsOk objs) (hf : InvFits x) (hc : AllCallable x)
    (hw : ∀ f ∈ fns x, OwnerOk f) (hx : invFromXdr d objs x = .ok (objs', i)) (hj : Same i j) (hl : ObjsOk (objs' ++ later))
    {f : XFn} (hm : f ∈ fns x) (hn : contextOf f = none) :
    ∀ objs3 v, contexts d' (objs' ++ later) j = .ok (objs3, v) → 2 ^ 31 < objs3.length := by
  intro objs3 v h
  by_contra h3
  obtain ⟨l, hs, _⟩ := C83_contexts hok hf hc hw hx hj hl h (by omega)
  have : ∀ {fs : List XFn} {l : List ScVal}, Shows fs l → f ∈ fs → False := by
    intro fs l hs
    induction hs with
    | nil => exact fun h => by cases h
    | cons h _ ih =>
      intro hm
      rcases List.mem_cons.1 hm with rfl | hm
      · rw [hn] at h; cases h
      · exact ih hm
  exact this hs hm

/-- C83, the payload: an account contract is given the hash of the message for the entry (C75), and contexts of the very tree that is in
the message. -/
theorem C83_signed {d d' addr ex b c : Nat} {wa : Bool} {nonce : Int} {a : ScAddr} {x : XInv} {i j : AInv} (hok : ObjsOk objs)
    (hf : InvFits x) (hc : AllCallable x) (hw : ∀ f ∈ fns x, OwnerOk f) (hx : invFromXdr d objs x = .ok (objs', i)) (hj : Same i j)
    (hd : d ≤ d') (hl : ObjsOk (objs' ++ later)) (ha : visitObj (objs' ++ later) addr = .ok (.address a))
    (h : shown E d' (objs' ++ later) ⟨addr, wa, some (nonce, ex), j⟩ = .ok (objs3, b, c)) (h3 : objs3.length ≤ 2 ^ 31) :
    Denotes objs3 b (.bytes (Xdr.be 32 (E.sha (writePre (payloadPre E.network wa nonce ex a (plain x)))))) ∧
    ∃ l, Shows (fns x) l ∧ Denotes objs3 c (.vec (some l)) := by
  unfold shown at h
  obtain ⟨p, h1, h⟩ := bind_ok.mp h
  obtain ⟨⟨o1, v1⟩, h2, h⟩ := bind_ok.mp h
  obtain ⟨⟨o2, v2⟩, h4, h⟩ := bind_ok.mp h
  cases h
  dsimp only at *
  have g1 := addObj_grown h2
  have g2 : ∃ e, objs3 = o1 ++ e := by
    unfold contexts at h4
    obtain ⟨⟨o1, v1⟩, h1, h⟩ := bind_ok.mp h4
    exact grown_trans (addObj_grown h1) (pushContexts_grown h)
  have l1 := Nat.le_trans (grown_len g2) h3
  have l0 : objs'.length ≤ 2 ^ 31 := by
    have := grown_len g1
    rw [List.length_append] at this
    omega
  have hp := ((C75_payload hok hf hc hx l0 hj hd ha p).1 h1).1
  subst hp
  have m := add_made (s := .bytes _) hl h2 l1 trivial (fun w hw => by cases hw) ⟨0, rfl⟩ rfl
  refine ⟨(m.is.grow g2).2, ?_⟩
  obtain rfl := addObj_eq h2
  rw [List.append_assoc] at h4 m
  exact C83_contexts hok hf hc hw hx hj m.good h4 h3

/-! ### non-vacuity -/

/-- The contexts of the tree of C75 (a call and, inside it, a creation), as they are read back. -/
def c83Contexts : Option ScVal :=
  match invFromXdr 5 c74Objs c75Tree with
  | .ok (o, i) => match contexts 5 o i with
    | .ok (o, v) => match fromVal false o 9 v with
      | .ok s => some s
      | .error _ => none
    | .error _ => none
  | .error _ => none

example : c83Contexts = some (.vec (some [
    tagged (txt "Contract") (struct [(txt "args", .vec (some [.u32 1])), (txt "contract", .address (.contract 5)),
      (txt "fn_name", .symbol [102])]),
    tagged (txt "CreateContractHostFn") (struct [(txt "executable", tagged (txt "Wasm") (.bytes (List.replicate 32 2))),
      (txt "salt", .bytes (List.replicate 32 9))])])) := by rfl

example : ∀ f ∈ fns c75Tree, OwnerOk f := by
  intro f hf
  simp only [c75Tree, fns, fnsAll, List.append_nil, List.mem_cons, List.not_mem_nil, or_false] at hf
  rcases hf with rfl | rfl <;> trivial

/-- The nesting is not shown: a call inside another is shown as the two calls one after the other would be. -/
example (f g : XFn) : fns (.mk f [.mk g [.mk f []]]) = fns (.mk f [.mk g [], .mk f []]) := rfl

/-- The deployer is not shown. -/
example : contextOf (.create (.address (.account 1) [2]) (.wasm [3])) = contextOf (.create (.address (.account 4) [2]) (.wasm [3])) := rfl

/-- A function that is refused. -/
example : contextOf (.create (.asset .native) .asset) = none := rfl

end C83
section C84
variable {objs objs' : List HostObj} {self : ScAddr}

/-- C84: when `authorize_as_curr_contract` succeeds, its argument is a vector that lists invocations, and the contract authorizes
exactly these: one tree for each element, in order, for the address of the contract, with nothing used up yet. Creations it
authorizes are by itself. -/
theorem C84_authorized {d entries : Nat} {s : ScVal} {l : List (Nat × AInv)} (hok : ObjsOk objs) (hp : Plain self)
    (hs : Sound objs entries) (he : Denotes objs entries s) (h : authorizeAs d self objs entries = .ok (objs', l))
    (hl : objs'.length ≤ 2 ^ 31) :
    ∃ ss xs, s = .vec (some ss) ∧ List.Forall₂ (Lists self) ss xs ∧
      List.Forall₂ (fun t x => Denotes objs' t.1 (.address self) ∧ (∃ D, ∀ d, D ≤ d → invToXdr d objs' t.2 = .ok x) ∧ Unused t.2) l xs := by
  unfold authorizeAs at h
  obtain ⟨vs, h1, h⟩ := bind_ok.mp h
  obtain ⟨ss, rfl, h2⟩ := is_vec hok ⟨hs, he⟩ h1
  have key : ∀ {vs : List Nat} {objs objs' : List HostObj} {ss : List ScVal} {l : List (Nat × AInv)}, ObjsOk objs →
      List.Forall₂ (Is objs) vs ss → authorizeEach d self objs vs = .ok (objs', l) → objs'.length ≤ 2 ^ 31 →
      (∃ e, objs' = objs ++ e) ∧ ∃ xs, List.Forall₂ (Lists self) ss xs ∧
        List.Forall₂ (fun t x => Denotes objs' t.1 (.address self) ∧ Reads objs' t.2 x ∧ Unused t.2) l xs := by
    intro vs
    induction vs with
    | nil =>
      intro objs objs' ss l _ h2 h _
      cases h2
      cases h
      exact ⟨⟨[], by simp⟩, [], .nil, .nil⟩
    | cons v vs ih =>
      intro objs objs' ss l hok h2 h hl
      cases h2 with
      | cons hv h2 =>
      rw [authorizeEach] at h
      obtain ⟨i, h3, h⟩ := bind_ok.mp h
      obtain ⟨⟨o1, a⟩, h4, h⟩ := bind_ok.mp h
      obtain ⟨⟨o2, is⟩, h5, h⟩ := bind_ok.mp h
      cases h
      dsimp only at *
      have g1 := addObj_grown h4
      have hlen : o1.length ≤ 2 ^ 31 ∧ ∃ e, objs' = o1 ++ e := by
        have : ∀ {vs : List Nat} {o1 o2 : List HostObj} {l : List (Nat × AInv)}, authorizeEach d self o1 vs = .ok (o2, l) →
            ∃ e, o2 = o1 ++ e := by
          intro vs
          induction vs with
          | nil => intro _ _ _ h; cases h; exact ⟨[], by simp⟩
          | cons v vs ih =>
            intro _ _ _ h
            rw [authorizeEach] at h
            obtain ⟨i, h3, h⟩ := bind_ok.mp h
            obtain ⟨⟨o1, a⟩, h4, h⟩ := bind_ok.mp h
            obtain ⟨⟨o2, is⟩, h5, h⟩ := bind_ok.mp h
            cases h
            exact grown_trans (addObj_grown h4) (ih h5)
        exact ⟨Nat.le_trans (grown_len (this h5)) hl, this h5⟩
      have m := add_made (s := .address self) hok h4 hlen.1 hp (fun w hw => by cases hw) ⟨0, rfl⟩ rfl
      obtain ⟨x, q1, ⟨D, q2⟩, q3⟩ := parse_is hok hv h3
      obtain ⟨g2, xs, k1, k2⟩ := ih m.good (forall2_grow h2 g1) h5 hl
      refine ⟨grown_trans g1 g2, x :: xs, .cons q1 k1, .cons ⟨(m.is.grow g2).2, ⟨D, fun d hd => ?_⟩, q3⟩ k2⟩
      obtain ⟨e, he⟩ := grown_trans g1 g2
      rw [he]
      exact invToXdr_lift (Nat.le_refl d) (Same.refl i) (q2 d hd)
  obtain ⟨_, xs, k1, k2⟩ := key hok h2 h hl
  exact ⟨ss, xs, rfl, k1, k2⟩

/-- C84, nothing else is needed: a vector that lists invocations is accepted, given a large enough depth limit and room for the address
objects. -/
theorem C84_accepted {entries : Nat} {ss : List ScVal} {xs : List XInv} (hok : ObjsOk objs) (hp : Plain self)
    (hs : Sound objs entries) (he : Denotes objs entries (.vec (some ss))) (hx : List.Forall₂ (Lists self) ss xs)
    (hl : objs.length + ss.length ≤ 2 ^ 31) : ∃ D, ∀ d, D ≤ d → ∃ r, authorizeAs d self objs entries = .ok r := by
  obtain ⟨_, vs, h1, h2⟩ := vec_is hok ⟨hs, he⟩
  have key : ∀ {ss : List ScVal} {xs : List XInv} {vs : List Nat} {objs : List HostObj}, ObjsOk objs → List.Forall₂ (Is objs) vs ss →
      List.Forall₂ (Lists self) ss xs → objs.length + ss.length ≤ 2 ^ 31 → ∃ D, ∀ d, D ≤ d → ∃ r, authorizeEach d self objs vs = .ok r := by
    intro ss xs vs objs hok h2 hx hl
    induction hx generalizing vs objs with
    | nil => cases h2; exact ⟨0, fun _ _ => ⟨_, rfl⟩⟩
    | cons h hx ih =>
      cases h2 with
      | cons hv h2 =>
        obtain ⟨D, hD⟩ := lists_parse hok hv h
        rw [List.length_cons] at hl
        obtain ⟨a, ha⟩ := addObj_ok (os := objs) (.address self) (by omega)
        have m := add_made (s := .address self) hok ha (by rw [List.length_append]; simp; omega) hp (fun w hw => by cases hw) ⟨0, rfl⟩ rfl
        obtain ⟨D', hD'⟩ := ih m.good (forall2_grow h2 (addObj_grown ha)) (by rw [List.length_append]; simp; omega)
        refine ⟨max D D', fun d hd => ?_⟩
        obtain ⟨i, hi⟩ := hD d (by omega)
        obtain ⟨r, hr⟩ := hD' d (by omega)
        exact ⟨_, by rw [authorizeEach]; exact bind_ok.mpr ⟨i, hi, bind_ok.mpr ⟨_, ha, bind_ok.mpr ⟨r, hr, rfl⟩⟩⟩⟩
  obtain ⟨D, hD⟩ := key hok h2 hx hl
  exact ⟨D, fun d hd => let ⟨r, hr⟩ := hD d hd; ⟨r, bind_ok.mpr ⟨vs, h1, hr⟩⟩⟩

/-- C84, no ambiguity: a vector lists one sequence of invocations at most. -/
theorem C84_unique {ss : List ScVal} {xs ys : List XInv} (h : List.Forall₂ (Lists self) ss xs) (h' : List.Forall₂ (Lists self) ss ys) :
    xs = ys := listsAll_unique h h'

/-! ### non-vacuity -/

/-- A vector that lists a call with a creation inside, after which there is another element that does not count. -/
def c84Vec : ScVal := .vec (some [
  .vec (some [.symbol (txt "Contract"), struct [
    (txt "context", struct [(txt "args", .vec (some [.u32 1])), (txt "contract", .address (.contract 5)), (txt "fn_name", .symbol [102])]),
    (txt "sub_invocations", .vec (some [.vec (some [.symbol (txt "CreateContractHostFn"),
      struct [(txt "executable", tagged (txt "Wasm") (.bytes (List.replicate 32 2))), (txt "salt", .bytes (List.replicate 32 9))]])]))],
   .u32 7])])

/-- What a contract authorizes with it, as XDR. -/
def c84Run : Option (List Nat) :=
  match toVal 9 [] c84Vec with
  | .ok (o, v) => match authorizeAs 9 (.contract 3) o v with
    | .ok (o, l) => match invsToXdr 9 o (l.map (·.2)) with
      | .ok xs => some (writeInvs xs)
      | .error _ => none
    | .error _ => none
  | .error _ => none

example : c84Run = some (writeInvs [.mk (.call (.contract 5) [102] [.u32 1]) [.mk (.createV2 ⟨.address (.contract 3)
    (List.replicate 32 9), .wasm (List.replicate 32 2), []⟩) []]]) := by decide +kernel

example : ∃ ss xs, c84Vec = .vec (some ss) ∧ List.Forall₂ (Lists (.contract 3)) ss xs :=
  ⟨_, _, rfl, .cons (.call (.inr ⟨5, rfl⟩) (.cons (.create (.wasm rfl) rfl) .nil)) .nil⟩

/-- The names are those of the Rust types. -/
example : [nArgs, nCtorArgs, nContext, nContract, nExecutable, nFnName, nOwner, nSalt, nSubs, nTag, cWasm, cAsset, cRef, cContract,
    cCreate, cCreateWith] = ["args", "constructor_args", "context", "contract", "executable", "fn_name", "owner", "salt", "sub_invocations", "tag",
    "Wasm", "StellarAsset", "ExternalRef", "Contract", "CreateContractHostFn", "CreateContractWithCtorHostFn"].map txt := by decide

end C84
end Soroban.Props
