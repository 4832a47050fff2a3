# Formal model of rs-soroban-env: design

The model is written in Lean 4 (4.33.0), in `/verif/lean/Verif/`. It is a functional transcription of the parts of
`/repo` listed below; the Rust code is never executed. Every definition of the model cites the file and lines it models.

## Layout

* `Verif/Model/*`   - the model: total computable functions transcribed from the code.
* `Verif/Spec/*`    - small specifications, independent of the model's helpers.
* `Verif/Lemmas/*`  - helper lemmas.
* `Verif/Props/*`   - the property theorems `Cnn_...`, with non-vacuity `example`s beside them.
* `properties.jsonl` - the properties in English; `MANIFEST.json` - property to theorems; `seeded/LOG.jsonl` - the wrong programs
  that were tried against the theorems.

## Modelling conventions

* `&mut self` methods return the new state. `Result<T, HostError>` is `Except Err T` where `Err` is the
  (error type, code) pair carried by `soroban_env_common::Error`; when a failing function has already mutated state, the
  model returns the state together with the result.
* Machine integers: `Nat`/`Int` with explicit `sat`/`checked` operations when the code uses saturating or checked
  arithmetic; the release profile has overflow checks on (`Cargo.toml`), so an unchecked overflow is a panic. `Val` words
  are numbers below 2^64, with shifts and masks written as division and remainder where that is what they are.
* Diagnostics (`err!`, logging, tracing hooks, backtraces) are dropped unless a property is about them.
* Metering calls are dropped from functional models of containers, storage, auth and so on; the budget itself is modelled
  separately. A metering failure makes the Rust function return `Budget/ExceededLimit` early. In the models that run code of
  contracts (`Host`, `Prng`, `Delegates`), code can fail at any point with any error (`Prog.fail`), which covers this.
* Contract code is arbitrary: a program is a tree of requests to the host, in which what follows a request is any function of
  its answer. Theorems about transactions quantify over all such programs.
* Theorems about states assume reachability from the start of a transaction (`TxStart`, `Reach`, `PReach`, `InTx`), not
  internal invariants; the invariants are proved in `Lemmas`.
* `Rc`, `RefCell` borrow failures and clones are identity.

## What is modelled and how each property is proved

| id | modelled | proof |
|----|----------|-------|
| C01 | `num.rs` small predicates, `val.rs` packing (`Model/Val`) | round trip, range characterisation |
| C02 | `symbol.rs` encode/iterate/compare (`Model/Val`) | induction over the byte list, positional-number argument |
| C03 | `val.rs` tags and `is_good`, `error.rs` (`Model/Val`) | case analysis over all words; constructors produce good words |
| C04 | object table, `convert.rs`, `host/conversion.rs` (`Model/Convert`) | structural induction on ScVal, monotone object table |
| C05 | `compare.rs`, `host/comparison.rs`, `obj_cmp` (`Model/ScVal`) | refinement to a lexicographic comparison of ScVals |
| C06 | `metered_map.rs` (`Model/Containers`, `Model/FMap`) | refinement to association function, sortedness invariant, over op lists; the calls with handles (`Model/Objects`) |
| C07 | `from_map`, `map_new_from_slices_impl`, `map_unpack_impl` (`Model/Containers`) | decision logic and induction |
| C08 | `metered_vector.rs` and the host `vec_*` checks (`Model/Containers`) | refinement to `List`; the calls with handles (`Model/Objects`) |
| C09 | `binary_search_by_pre_rust_182` (`Model/Containers`) | loop invariant |
| C10 | `host_object.rs` handle translation, `vm/dispatch.rs` argument checks (`Model/Objects`) | invariants over op lists, renaming of handles |
| C11 | `budget.rs`, `budget/dimension.rs` (`Model/Budget`) | invariants over charge lists |
| C12 | `budget/model.rs` (`Model/Budget`) | arithmetic |
| C13 | shadow mode of the budget (`Model/Budget`) | invariant over nested programs |
| C14 | `budget/limits.rs` (`Model/Budget`) | induction over nesting trees |
| C15 | dimension charge/refund/peak (`Model/Budget`) | history invariant |
| C16 | `vm/fuel_refillable.rs`, fuel conversion (`Model/Budget`) | arithmetic |
| C17-C19 | `storage.rs` (`Model/Storage`) | per-operation decision theorem, refinement, simulation of recording by enforcing |
| C20, C21 | TTL functions of `storage.rs`, `ledger_info.rs` (`Model/Storage`) | arithmetic, decision theorems |
| C22-C26 | `host/frame.rs`, `try_call`, `is_recoverable` (`Model/Host`) | interpreter over call trees, induction over programs |
| C27-C29 | `auth.rs` in enforcing mode (`Model/Auth`) | invariants over auth op lists |
| C30-C32 | `fees.rs` (`Model/Fees`) | integer arithmetic |
| C33-C38, C42, C43 | Stellar Asset Contract: `builtin_contracts/stellar_asset_contract/*` (`Model/Sac`) | sums over finite maps, invariants over op lists; C38 is false of the code in one case: negation proved with a witness, and a partial theorem |
| C39, C40, C44 | `e2e_invoke.rs` in enforcing mode (`Model/E2e`) | decision theorems, induction over the changes |
| C41 | `events/internal.rs`, `externalize` (`Model/Events`) | induction over histories |
| C45-C49 | storage, instance storage, creation, upload and update of contracts: `host/lifecycle.rs`, `host/data_helper.rs`, `host.rs` (`Model/Host`); for C49 also the calls on instance storage with words (`Model/Diagnostics`) | invariants over programs: every step is one of a few relations between ledgers |
| C50 | `account_contract.rs` (`Model/Account`) | induction over the signatures |
| C51 | signature payloads and `pushContexts` of `auth.rs`/`account_contract.rs` (`Model/Account`) | injectivity of the preimage; induction over invocation trees |
| C52 | delegated signers in `auth.rs` (`Model/Delegates`) | invariants over op lists |
| C53 | `host/prng.rs`, `with_current_prng` (`Model/Prng`) | every frame's answers are those of one generator (refinement), over programs |
| C54 | `mem_helper.rs`, the functions on linear memory of `host.rs` and `data_helper.rs` (`Model/Memory`); memory is a list of bytes | exact success conditions and effects against `Spec/Memory` (bytes, words and slices at a position); frame theorem and immutability over sequences of calls; calls with the words of a contract succeed exactly where the functions do (`Props/MemoryCalls`) |
| C55 | functions of module "buf" in `host.rs` (`Model/Memory`) | each function against its meaning on sequences (`Spec/Bytes`), as an equivalence |
| C56 | functions of module "int" in `host.rs`, macros of `host/num.rs`, conversions of `convert.rs` (`Model/Int`) | each function against the integers and their digits (`Spec/Int`): `Means` says what an operation gives, `TwosComplement` what digits stand for; the functions are also steps of the executions in C10 and C54 |
| C57 | recording mode of `auth.rs`: `require_auth_recording`, `record_invocation`, `new_recording`, snapshots and payloads; the enforcing search of `Model/Auth` on the same events (`Model/Recording`) | simulation: at every step the enforcing trackers have the final recorded trees, of which exactly the nodes recorded so far are used, with the same match stacks (`TSim`, `TIdle`, `Sim`); partial: calls ask once per address or one object per address is used (`C57_two_objects` is the counterexample otherwise); calls that fail and are caught are covered by `C57_replay_failures_partial` and `C57_recorded_failures`: in both modes they have exactly the effect of calls that do nothing (`Lawful` in `Lemmas/RecordingFail`, with the roll-back lemmas of C28); `C57_root_only`, `C57_failed_call`; `C57_same_request` ties the enforcing step to the host model |
| C58 | `soroban-simulation`: `adjust_u32`, `adjust_i64`, `compute_resource_fee`, `compute_adjusted_transaction_resources`, `estimate_max_transaction_size_for_operation`, `create_transaction_data`, `extract_modified_entries`, end of `simulate_invoke_host_function_op` (`Model/Simulation`); the product with a floating-point factor is an arbitrary function, the sizes of XDR structures are computed from the XDR definitions | monotonicity of the fee (C30), bounds on the parts of an envelope |
| C59 | `simulate_extend_ttl_op_resources`, `simulate_restore_op_resources`, `AutoRestoringSnapshotSource`, `SimulationSnapshotSource` and `update_account_entry` of `soroban-simulation` (`Model/Simulation`) | per-key decision lemmas lifted over the loops; induction over the reads of a source; transparency from the storage refinement (C18) |
| C60 | `invoke_host_function_in_recording_mode` of `e2e_invoke.rs` with given authorization entries, and all of `Model/Host` in recording mode (`Model/E2eRecording`) | lockstep of the two modes for every host function and every program (`Lemmas/HostReplay`), invariant of the recorded footprint (`Lemmas/StorageRec`), per-key comparison of the ledger changes |
| C61 | admission of Wasm code: `vm/parsed_module.rs`, `vm/func_info.rs`, the linkers and constructors of `vm.rs`, the guard of `vm/dispatch.rs`, the checks of `upload_contract_wasm`; the table of host functions is generated from `env.json` (`Model/Wasm`, `Model/HostFunctions`) | both directions of the decision against the structure `Admitted`; later hosts by monotonicity of its fields |
| C62 | `vm/module_cache.rs` as atomic steps of threads, `instantiate_vm` of `host/frame.rs` (`Model/Wasm`) | invariant of the reachable states of the shared cache; comparison of the cached, uncached and recording paths |
| C63 | `extract_refined_contract_cost_inputs`, `wasm_module_memory_cost`, `entry_size_for_rent` (`Model/Wasm`) | saturating counters commute with addition of unbounded tallies; induction over the charges of the budget |
| C64 | `metered_func_call` of `vm.rs`, the dispatch functions, the fuel exchange, the error conversions (`Model/VmCall`) | induction over the execution tree with the invariant that charged instructions and consumed fuel add up to what was executed |
| C65 | reading and writing of points and field elements of `crypto/bls12_381.rs` and `crypto/bn254.rs` (`Model/Curves`) | the readers succeed exactly on the written form of a value (`bls_deserialize_iff`, `bn_deserialize_iff`) |
| C66 | the host functions for sums, multiples and multi-scalar multiplications (`Model/Curves`) | the chord and tangent formulas are Mathlib's group law (`add_eq`); that BN254 G1 has `r` points is proved from a generator of order `r`, a bound of `2p + 1` points and the absence of points of order two (`bn_card`) |
| C67 | `multi_pairing_check` of both curves, over an arbitrary pairing | for any function that multiplies the values of a map `e`; bilinearity is a hypothesis only of `C67_signature`, met by maps constructed in `Lemmas/SomePairing` |
| C68 | the scalar host functions | arithmetic of `ZMod r`; that both orders are prime is proved with Pratt certificates (`Lemmas/CurvePrimes`) |
| C69 | both permutations and their host functions (`Model/Poseidon`) | every layer of the code is a product with a matrix of the specification (`external_ok`, `internal_ok`, `matmul_ok`), loops are folds; fifth powers are injective because 5 has an inverse modulo `r - 1`; the kernels of the layers are trivial; the known answers of the code's tests are evaluated in `Props/PoseidonKat` |
| C70 | reading of keys, signatures, digests and recovery identifiers, and the three host functions (`Model/Signatures`) | decision logic stated outright over arbitrary libraries; `C70_unique` takes as hypothesis that the library accepts only solutions of the ECDSA equation over a group of order `n` (proved prime), and a library over a small group meets it |
| C71 | `Model/Strkey.lean`: the six host functions on the object table, with `stellar-strkey`, base32 and CRC16 modelled from their documentation. `Spec/Strkey.lean`: base32 bit by bit and the checksum as divisibility of polynomials over GF(2). | decoder accepts exactly the encoder's output (bit-group lemmas); the checksum is the unique remainder (induction over bits); errors within ten bits are found (linearity and invertibility of the checksum step, finite case analysis of the error patterns); known answers of the repository by kernel computation. |
| C72 | `Model/AssetMeta`: decoding and validating the asset, `init_asset`, rendering of codes and names, metadata | inversion of the decoder and of the validating loop; renderings are sequences of tokens that can be told apart whatever follows; names end in a strkey of fixed length (C71) |
| C73 | `Model/Xdr`: the XDR form of `ScVal` (writer and reader), `serialize_to_bytes`, `deserialize_from_bytes`, on top of the conversions of C04 | the reader is shown to be the inverse of the writer in both directions, by induction on the nesting; then C04 and C05 ; the bytes are shown to have the form of a separate list of fields |
| C74 | `Model/Preimage`: contract id preimages and their XDR form, `get_contract_id`, `get_asset_contract_id`, the creation functions up to the id (what follows is a parameter that adds objects) | every writer is shown to be prefix-free, the XDR reader of C73 does the rest |
| C75 | `Model/Preimage`: authorization entries with host values, conversion from and to XDR, `get_signature_payload` down to the bytes | round trip of trees by induction on top of C04; prefix-freeness of the tree's writer by induction |
| C76 | `Model/LedgerKey`: ledger keys of all kinds, `Compare<LedgerKey>` on top of the comparison of values of C05 | the order is lexicographic on an injective encoding as numbers; the metered map of C06 with this comparison is a map |
| C77 | `Model/LedgerKey`: `Compare<AuthorizedFunction>` over host values and `Compare<CreateContractArgsV2>` over XDR | each component decides equality or runs out of depth (C05), composed lexicographically. This is what lets `Model/Auth` compare functions by equality |
| C78 | `Model/Metering`: the meter with its depth, root and nodes addressed by the path of last calls; executions are trees of work and scopes over any host with a reading of its resources | mutual induction over executions: at depth d the node at that depth accumulates exactly the calls of the specification, which knows neither depth nor mutable tree |
| C79 | `Model/Metering`: the loop over the footprint, from sizes and lifetimes of the entries before and now | induction over the footprint, the resources being sums over filtered lists |
| C80 | `Model/Metering`: `estimate_fees`; charging from `Model/Fees` | saturation is absorbed where nothing exceeds the greatest number; rounding up is the least whole number not below; sub-calls by C78 |
| C81 | `Model/Host`: executables, tags and their checks as for C44 to C49 | the relation between the ledgers before and after that every operation keeps (`LLe`) records where new executables and tags come from |
| C82 | `Model/Host`: `addressExecutable` | from C45 (isolation) for the contract and for the owner of the tag; the lookup by cases on what the storage answers |
| C83 | `Model/ContractTypes`: structs, enums and vectors written to the object table, the contexts of a tree, the payload next to them | what each writer makes stands for the value of `Spec/ContractTypes`; induction on the tree; injectivity by cases |
| C84 | `Model/ContractTypes`: structs, enums and vectors read, `parse`, `authorizeAs` | what each reader accepts, in both directions, against the inductive relation `Lists`; induction on the depth and on the tree |
| C85 | `Model/SacValues`: the entry point the macro writes, the readers of arguments, the values returned | against the inductive relation `Means` (one constructor for each function of the interface), both directions; success from totality of the writers |
| C86 | `Model/SacValues`: topics and data of events | each writer makes what stands for the value of `Spec/SacValues`; which events from the step relation of `Sac`; injectivity by cases |
| C87 | `Model/NetworkConfig`: loading of the settings, the budget made of them | case by case on the settings against the formulas of `Spec/NetworkConfig`, with C30, C32 and C12; induction on the window and on the parameters |
| C88 | `Model/SacStorage`: keys and stored values of the asset contract as host values, made and read | through the structs and enums of C83 and the leaves of C85, C86; sorted names make `map_new_from_slices` succeed; C04 across object tables; injectivity of the documented forms. It justifies the abstract `SKey` and `SVal` of `Model/Sac` for contract data |
| C89 | the model of C33-C38 (`Model/Sac`); reasons to refuse a call in `Spec/SacRefusal` | a progress logic (`Ends`: a computation returns with a postcondition or fails with a contract error that satisfies a predicate) over the storage model: every storage operation returns under the declared footprint; each helper decides its reason; both directions, so that success is equivalent to the absence of reasons |
| C90 | `Model/Host`: `extendKey`, `extendCode`, `extendContract` (the functions of `host.rs` and `host/data_helper.rs` that extend the lifetime of instances and code); entries of a contract and the rules for lifetimes in `Spec/HostExtend` | from the exact effect of an extension of one entry (as for C20), composed for disjoint keys, since an extension changes neither executables nor what tags stand for; both directions, so that success is characterised |
| C91 | `Model/MeteredClone`: `deepClone`, `cloneVal`, `cloneKey`, `cloneEntry`, `cloneInv`, `cloneHostVec`, `cloneHostMap`, `meteredCollect` as work of the budget model of C09-C12; the blocks of memory of a structure, its levels and the charges in `Spec/MeteredClone` | by mutual induction over values and trees each copy is equivalent to a list of charges below a depth check; the bound on memory by induction over the charges, from the linear part of the cost model |
| C92 | the model of C27-C29 (`Model/Auth`, `Model/Host`); `Spec/HostAuth` says which node of a signed tree is next in terms of the record of uses and the numbers of the running frames only (`Offers`, `Chosen`), what a contract has granted (`ContractGrant`) and when an entry is authentic (`Authentic`) | the invariants of C27 are strengthened by what makes matching complete: the walk along the matches never fails, a frame with a use is a matched frame, the frame of the root is recorded; then the searches over trackers are exact by induction over the lists |
| C93 | the events of `Model/Host` say whether they are from a contract or announce an update, with the old and the new executable; `Spec/HostUpdates` says what it means for updates to lead from one executable to another (`Leads`) | one more invariant of states in which nothing has gone wrong in the current frame (`HStrong.updates`), by induction over programs; the ledger steps other than an update keep the executables of existing instances (`XSame`), the rollback of a frame restores events and ledger together |
| C94 | nothing new in the model; `Spec/HostCallable` says what a call needs (`CanEnter`) and what becomes of the result of the code (`Outcome`, `Returns`) | the storage functions fail only for keys outside the footprint and missing entries; popping a frame cannot fail in a reachable state; the instance stays in the ledger while the code runs, so that it can be written back exactly if it is declared for writing |
| C95 | nothing new in the model; `Spec/HostDeploy` says what each of the three needs | the storage functions, with an enforced footprint, as equations (`enf_has`, `enf_get`, `enf_put`); then case by case through the steps, with C94 for the constructor and C92 for the deployer |
| C96 | `Model/LazyEntry`: storage maps of pointers to cells in a heap that rollbacks do not restore; the functions of `Model/Storage` that do not look into entries are used with pointers for entries | simulation by the storage of `Model/Storage` with decoded entries, up to the content of entries that are not read; an invariant on the cells decoded so far for the number of decodings |
| C97 | `dataOp` of `Model/Host` | both directions for every function, in reachable states of both modes, from the refinement of storage to a ledger (C18, C20); the extension rule is stated anew in `Spec/HostData` (extensions of whole contracts: C90) |
| C98 | `Model/Host` | the code of a contract by itself is a relation on its data only (`Spec/HostSerial`); every run of every code in the host is such a run, by induction over the code, using C24 and C49 for what others leave alone; transactions are sequences of such runs |
| C99 | `Model/Host`, histories of `Spec/Host` | C98 for the ledger as a whole: at the start of a transaction its data is that of the ledger but for expired temporary entries, at the end it is what is committed; then induction over histories (`Spec/HostHistory`); a contract that does not exist yet has no data, and its creation adds none before its constructor runs |
| C100 | `metered_map.rs` and `metered_vector.rs` with their charges and a log of what they read and copy (`Model/Collections`) | accounts with a credit, composed over the steps; for searches the size of the interval against a power of two; agreement with `Model/Containers` step by step; invariant of the budget over sequences |
| C101 | `emulate_authentication`, `maybe_emulate_authentication` and the end of the outermost frame (`Model/Emulation`), over the storage in recording mode of `Model/Storage` and the host of `Model/Host` | the footprint after a read in recording mode as an equation; composition over the reads and the signers; with C94's exact conditions of calls the footprint is enough; a witness for references changed by the call |
| C102 | the reading of the signature value in `check_account_authentication` (`Model/AccountSignature`), over the struct conversions of `Model/ContractTypes` | the reading of structs, vectors and bytes as an equivalence with the value denoted, composed with C50; bytes and numbers have the same order |
| C103 | the conversions of Rust values in `convert.rs`, `option.rs`, `result.rs`, `tuple.rs` and `val.rs` of soroban-env-common, with the host as the environment (`Model/RustValues`) | numbers by C01 and the conversion of ledger values (C04); mutual induction over types and tuples; the ambiguous types by constructing two values with the same meaning |
| C104 | `SymbolStr`, its conversions and comparisons and `Compare<Symbol>` (`Model/Symbols`) | the padded array as text and zeros; texts of symbols have no zeros; C02 for words, C05 for objects |
| C105 | words of errors, `From` conversions of failures of wasmi, the parser and XDR, `is_recoverable` on words (`Model/Errors`) | arithmetic of the fields of a word; cases of the finite kinds of failures |
| C106 | contracts as trees of calls of the functions on maps, vectors, bytes, strings, symbols and linear memory, `obj_cmp`, arbitrary functions on ledger values and a state, instance storage, `contract_event`, `log_from_linear_memory` and `try_call`, on a host whose debug mode adds arbitrary objects (`Model/Diagnostics`) | simulation of two executions: a pairing of the indices of objects that grows with every call; each function is natural in the words of its containers (`Lemmas/Natural`) |
| C107 | the functions of the "context" module that take no arguments (`Model/Context`) | decision logic against `Spec/Context` (the answer, and when a word stands for it); the last ledger is used in an extension through C20 |
| C108 | making of trackers in recording mode with their nonces, snapshots of calls, and the entries made of them (`Model/RecordedAuth`) | invariant of the state and of all snapshots in progress, by induction over the history; entries against `Spec/RecordedAuth` |

## Trusted base

* Lean's kernel; the axioms `propext`, `Classical.choice`, `Quot.sound` only (checked with `#print axioms` and by `vcheck`). No
  axioms are added; there is no `sorry`, `native_decide` or `bv_decide`.
* The transcription of Rust into Lean, function by function, with the simplifications stated in each definition's comment.
* Parameters of the model, which stand for code that is not in the repository or not modelled, with the laws assumed of them:
  * the generator library (`rand`, `rand_chacha`, `hmac`): `Prng.Gen`, results have the size or range asked for;
  * ed25519 verification (`verify` in C50): any function; SHA-256 (`hash` in C51): the payload theorems are about the preimage,
    and say what follows for the hash when it has no collision;
  * derived `Ord` of XDR types and `int128_helpers` (crate `stellar-xdr`), 256-bit integers (crate `ethnum`): order, ranges and
    checked arithmetic (`checkedOp`) of mathematical integers;
  * `HEnv` in the host model: how contract identifiers and code hashes are derived, which code supports constructors, the
    authentication of Stellar accounts;
  * in the token model, `require_auth` and calls to other contracts (`AuthOk`, `Elsewhere`: they do not touch the token's entries,
    which is C45).
  * for the execution of contracts (C64): `wasmi` itself. An execution is any tree (`VmCall.Prog`) of instruction costs, requests for
    memory, calls of host functions, traps and results; that `wasmi` consumes fuel for the instructions it executes, stops when the fuel
    does and passes host errors through unchanged is assumed (`VmCall.spend`, `VmCall.exec`). Host functions are any functions
    that change the budget only by metered work (`Spec.Metered`).
  * for Wasm code (`Wasm.Ext` in C61 to C63): the decoders and the validator of `wasmparser` and `wasmi`, SHA-256 (no collision is
    assumed in C62), and the allocation of memories and tables by wasmi: any functions. Of `wasmi::Linker` the model has the
    definition and resolution of functions by name and type.
* Not modelled: wasmi execution, XDR encodings other than those of `ScVal`, `Asset` and the preimages named below, the hash functions (SHA-256, Keccak-256), the cost of the emulated authentication of recording mode in `auth.rs` (what it reads is modelled, C101), recording mode of `e2e_invoke.rs` together with recorded authorizations (C60 is about given authorizations), diagnostics and tracing, test utilities, the Rust standard library's own correctness.
  * for curves (C65 to C68): the arithmetic of the library `ark` is taken to be that of the fields, and its points in any coordinates
    to be the points. The model says what it computes: the reader of points masks flags and reads coordinates, the subgroup check decides
    `r * P = 0`, a multi-scalar multiplication is the sum of the multiples. Maps and hashes to curves and the pairing are parameters. The
    constants (moduli, orders, coefficients) are copied from the definition of the curves; the moduli and orders are proved prime, the
    usual generators are proved to have order `r`, and the coefficient of the twist of BN254 is proved to be `3 / (9 + u)`.
  * for Poseidon (C69): field arithmetic of `ark` is that of `ZMod r`; conversion between 256-bit objects and scalars is reduction and
    the least residue; the symbol of the field is an enumeration.
  * for signatures (C70): `ed25519_dalek`, `k256` and `p256` are parameters, apart from the reading of ECDSA signatures (two scalars of 32
    bytes, not zero, less than the order), the meaning of a high `s`, and the tags of points.
  * for strkeys (C71): that the crates `stellar-strkey` and `data-encoding` do what SEP-0023, RFC 4648 and CRC16-XMODEM say; the model of them reproduces the three known answers of test/address.rs;
  * for asset contracts (C72): the derivation of a contract address from an asset is a parameter; host objects and the instance storage are their contents; the XDR decoder of `Asset` is modelled by the layout of the three cases;
  * for serialization (C73): that `stellar-xdr` writes and reads `ScVal` as RFC 4506 and Stellar-contract.x say, refuses nonzero padding and trailing bytes, and counts nesting alike when writing and reading (parameter `shallow`);
  * for hashed messages (C74, C75): SHA-256 (parameter `sha`), the discriminants and field order of `HashIdPreimage`, `ContractIdPreimage`, `ContractExecutable` and `SorobanAuthorizedInvocation` in `stellar-xdr`; C75_payload assumes that the called addresses of an entry are accounts or contracts;
  * for comparisons (C76, C77): the derived orders of `TrustLineAsset`, `ContractIdPreimage`, `ContractExecutable`, `LedgerKeyAccount`, `LedgerKeyTrustLine` and `LedgerKeyContractCode` in `stellar-xdr` (cases and fields in the order of declaration);
  * for metering (C78 to C80): that the readings of a host are not negative and fit their types; encoded sizes of entries are inputs (`metered_write_xdr`, `entry_size_for_rent`); the diagnostics of `verify_limits` are not modelled, and which encodings the budget allows there is an input;
  * for executables (C81, C82): the hash in a tagged executable is an abstract partial function of the value stored; that the ledger a transaction starts with has code for its contracts is a hypothesis (code can be archived between transactions, also code that only a tag refers to);
  * for contexts and listed invocations (C83, C84): the code the derive macros generate for structs and enums is modelled as they are written to generate it; the called contracts and owners are accounts or contracts, as entries elsewhere require;
  * for values of the asset contract (C85, C86): the entry point is modelled as the macro is written to generate it; muxed identifiers are below 2^64 (their XDR type); all arguments are read before the function starts and events become values when it has returned, which changes only the order of object handles;
  * for the network's settings (C87): the order of `ContractCostType` and the layout of `ConfigSettingEntry` in `stellar-xdr`; what the snapshot returns for a key is arbitrary;
  * for stored values of the asset contract (C88): an address in a key is made a new object, where the code uses the one it holds; the entry of the instance itself and the metadata value are not modelled here;
  * for refusals of the asset contract (C89): the budget, limits of the host and failures inside `require_auth` are left out (the latter as a hypothesis: whoever is asked consents); where several reasons hold the theorem says that the reported one is among them, not which is found first; ledger sequence numbers below 2^31 and amounts within their types are hypotheses (`Running`, `Deployed`);
  * for extensions of the lifetime of contracts (C90): the rent fee is C03-C05 and is not part of it; that lifetimes in the ledger are 32-bit numbers is a hypothesis of `C90_exactly`;
  * for metered copies (C91): that the declared sizes (96 bytes for a value and so on) are at least the sizes of the compiled types is checked by tests of the code and by debug assertions, and is trusted; which blocks of memory a Rust type owns is read off its definition; `tag : Nat → Option Nat` stands for the external-reference tags of contract instances in values;
  * for the exact condition of `require_auth` (C92): the code of `__check_auth` and the check of the signatures of accounts are parameters, as for C29; what they return is part of the condition;
  * for the announcement of updates (C93): the conversion of the executables to values (it can only fail for lack of budget) and the externalization of events (C41) are not part of it; a contract that does not exist at the beginning may be created with any executable, which no event tells;
  * for the exact condition of calls (C94): enforced footprints only; the budget and the validity of the Wasm code (C32, C37), the existence of the function and the conversion of its arguments are not part of it: the code of the function is a program that may fail at any point;
  * for uploads and creations (C95): the check of uploaded Wasm code (C61, C63) and the conversions of keys and values are not part of it;
  * for lazily decoded entries (C96): the decoder, the encoder and the key of an entry are parameters; the hash of cells in traces is not modelled;
  * for Rust values (C103): the error type of `Result` is `Error`; conversions of contract error types to and from it are the contract's;

## Findings

Where the code does not do what a reader could expect; each has a theorem or is stated in the property.

* C38: `approve(5, L1); approve(0, L2 > L1); approve(10, L2)` leaves an allowance entry whose lifetime was not extended, so that it
  reads 0 before `L2` (`C38_counterexample`). The partial theorem says when an allowance does stay available.
* C10: `index_to_handle` wraps for indices from 2^31 on (`C10_handle_wraps`); the bound appears in C04 and `C10_values_stay_sound`. The
  budget makes it unreachable in practice.
* C12, C30: saturation of an intermediate product undercharges (`C12_saturation_undercharges`, `C30_saturation_undercharges`).
* C31: splitting a rent extension in two can save exactly one stroop (`C31_split_can_save_one`).
* C02: small symbols with embedded zero codes pass validation (`C02_noncanonical_words_exist`). `Compare<Symbol>` orders small and
  object symbols by tag; the comparison of values does not use it.
* C05: `ScVal::Vec(None)` and `ScVal::Map(None)` make comparisons fail even against values of other types.
* C11: a failure of the memory limit can be followed by success after a refund. `memory_growing` swallows budget errors.
* C22: in recording mode a failed call may leave a larger footprint; the visible ledger is unchanged.
* C24: the one re-entry is the host's own call of `__check_auth` of a contract that is running.
* C41: `externalize` also converts events of failed calls, so that an unconvertible event in a failed call fails the whole
  invocation (`C41_succeeds`).
* C46, C48: uploading code again with a changed extension writes the entry with the minimum lifetime, possibly shorter than the one
  it had; `get_ledger_changes` then reports the longer one (`C40_never_shorter`, `C40_apply`).
* C51: the payload signed for the oldest kind of credentials does not bind the address (`C51_old_payload_any_address`); the context
  of a contract creation does not include the deployer (`C51_create_context_any_deployer`).
* C52: the comment in `auth.rs` that the state of a borrowed tracker cannot change is not accurate for delegated signers; it is
  harmless because errors propagate and only `__check_auth` can touch it (`C52_failed_call`, `C52_only_check_auth`).
* C54: the model reads all keys of a map before comparing any, the code reads each just before it is compared; only the error of a
  failing call can differ.
* C53: a request for an invalid range uses up a draw of the base generator.
* C57: a call that asks for an address through two address objects can be recorded as trees that do not authorize it, because
  recording tells the trees apart by object and enforcing takes the first that matches (`C57_two_objects`). Requests in calls that
  fail and are caught are not recorded (`C57_failed_call`), so that with the recorded entries such a call fails at the request; it
  still fails and is still caught (`C57_replay_failures_partial`), but the error its caller is given can be another one.
* C58: the estimated size is that of a `TransactionV1Envelope`; the encoding of the enclosing `TransactionEnvelope`, which is what is submitted, has four bytes
  more. If no entries are restored the estimate has four bytes to spare (it counts an empty list of archived entries that is not sent), otherwise it has none.
* C59: the documentation of `simulate_extend_ttl_op` says that it fails only for a misconfigured ledger; it also fails for keys without lifetimes and for archived
  entries (`C59_extend_succeeds`, examples beside it), and a sum of ledgers that overflows panics. A key given twice is declared twice. The fee of a
  simulated restoration counts no entries read from disk (`resourcesOf` with nothing in `archived`), while an automatic restoration in an
  invocation counts each.
* C60: an entry that is used only inside a `try_call` that fails stays in the recorded footprint, possibly as read-write and to be restored, but
  is rolled out of the storage. `add_footprint_only_ledger_changes` reports its key without value, size or lifetime, so it adds nothing to the simulated
  `write_bytes` and rent. In the submitted transaction the entry is in the storage map and is returned with its value, and with
  rent to pay if it is restored (`C60_failed_calls_underestimated`). Only the margins of the simulation crate cover the difference.
* C60: for an archived entry that is restored and then deleted, the old size and lifetime differ between the two modes; no rent is due in either.
* SAC: the issuer's balance reads as `i64::MAX`; `current_min_balance + base_reserve` in `create_trustline_if_needed` is an unchecked
  addition (a panic on overflow).
* C64: if returning fuel to the host fails inside a dispatch function, the fuel counter is not reset and the same instructions are
  charged a second time when the call ends. Nothing depends on it: the budget is used up already.
* C62: in recording mode code that is live must have cost inputs that can be determined, whereas outside it code stored without
  them (before protocol 21) runs without a cache even if they cannot be. For code whose cost inputs can be determined the paths agree.
* C62: `parse_and_cache_module` releases the lock between its check and its insertion, so two threads may parse the same code; the
  second insertion replaces the first with an equal module.
* C66: `g1_add` and `g2_add` take points of the curve that are not in the subgroup (an example has a point of order three), while the
  multiplications, multi-scalar multiplications and pairing checks refuse them.
* C69: the documentation of `poseidon2_permutation` says that `mat_internal_diag_m_1` is the diagonal of the internal matrix. For state
  sizes two and three the code uses a fixed matrix and only checks the length of the argument (`C69_diagonal_ignored`). The rows of the
  constants of partial rounds may have any nonzero length, although the documentation asks for a matrix.
* C71: because the checksum is written low byte first, it does not find every mistake in three neighbouring characters (`C71_mistake_sharp`: the texts of two accounts that differ only in characters 52 to 54). Two neighbouring characters are always found.
* C72: `render_sep0011_asset_code` stops at the first zero of a four-byte code, so `[0,X,L,M]` is rendered as the empty text, like `[0,0,0,0]`. Validation refuses both codes, so no contract can have such a name (`C72_render_sharp`).
* C75: an entry that lists a call to an address that is neither an account nor a contract (a muxed account, say) puts an `Address` object into the table that no other conversion would make; the entry can never be used, so nothing follows, but C75_payload leaves such entries out.
* C78: `verify_limits` encodes the keys and entries of the footprint with the budget of the invocation, not in shadow mode, and skips what it cannot encode. An invocation that has used nearly all of its instructions is therefore not checked against the limits of single keys and entries (`C78_unencoded_not_checked`).
* C79: an entry that is deleted and created again in one invocation, ending with fewer ledgers to live than it had (for example a temporary entry that had been extended), makes the subtraction `new_live_until - init_live_until_ledger` of the meter overflow, which panics since the profiles enable overflow checks (`C79_recreated`).
* C80: the meter estimates the rent of a new entry for one ledger less than `compute_rent_fee` charges, and ignores that code is charged a third (`C80_rent_differs`). `compute_transaction_resource_fee` does not itself count written entries as read, although the comment on `TransactionResources` says so: the caller must have added them (`C80_charged`).
* C83: the contexts are flat. Which function calls which is in the signed payload and not in the contexts, and so is the deployer of a creation: `fns (.mk f [.mk g [.mk f []]]) = fns (.mk f [.mk g [], .mk f []])`. Trees that create asset contracts cannot be approved by account contracts (`C83_refused`).
* C84: elements after the second one of an enum's vector are ignored when it is read, so a listed invocation may have trailing elements (`Lists`, `rest`).
* C86: a transfer to a muxed address of the issuer publishes a `burn` event, which has no identifier: the identifier given is lost (example in `Props/SacValues`). Neither `transfer_from` nor `mint` take a muxed receiver.
* C87: a negative instruction limit is not refused but is cast to a limit of at least 2^63 (`C87_negative_limit`); the sum of the state sizes saturates, so that the average is too low when the sum does not fit 64 bits.
* C89: an allowance given for a time that the network no longer allows (the maximum lifetime was lowered since) is reported when queried but cannot be spent, since spending rewrites it with its old end (`NotAllowed.tooLong`). The account of the issuer must exist for most calls: if it was merged away, paying a contract that has no balance yet fails with an error of the host rather than of the contract, which is why `Deployed` asks for it.
* C45/C90: a contract that refers to an executable tag of another contract makes the lifetime of that tag extendable by everybody: extending the code of the referring contract extends the tag entry of its owner, which is a data entry of the owner. No value can be changed that way. C45 states this exception.
* C91: a metered copy of an invocation tree is not charged for the tag of a creation in the first format that refers to an executable tag (`CreateContractArgs` is taken as having no substructure), though the same tag is charged for in the second format; and a metered copy of an authorization entry is not charged for the signature in its credentials. `C91_unpaid_tag` and `C91_unpaid_signature` state both. Copies of invocation trees limit the depth of the values in them but not the depth of the tree.
* C92: two consequences of the order of matching are easily missed by those who build signed trees: a frame can use only one node of an entry, even if the entry lists the same call twice below one node (`Done` in `Offers`), and while an entry of an address is in use by an enclosing frame, no other entry of that address is begun, even if it has the only match (`RootsOpen`).
* C93: the event of an update has the executable of the instance, not the code it resolves to: if a contract refers to the tag of another one, a change of that tag changes the code it runs without an event of either contract (see C82).
* C94: a call of a contract that changes its instance storage fails at its end, after all its effects, if the instance is declared for reading only; a value that is an error of the host is not passed on as this error but as context/invalidAction, while an error of the contract is.
* C95: an update of the executable to a tag of another contract needs the tag only, not the code it stands for: the contract can no longer be called if that code is not in the ledger or the tag is not a hash (tags that contracts write always are, C81).
* C96: the check that an entry has the key it is stored under is made only when the entry is decoded by a read. A second read of a misplaced entry succeeds (contracts cannot exploit this: the first failure is an internal error, which ends the transaction), and the changes of a transaction report the misplaced entries it declared read-write and did not read, without a check. A recording host decodes an entry again if the call that loaded it was rolled back; an enforcing one does not. So recorded costs can be higher than enforced ones.
* C97: deleting an entry that does not exist succeeds, and so does extending the lifetime of an entry declared read-only. A temporary entry cannot be asked to live longer than entries can, whereas for a persistent one the request is cut to the maximum. A new entry cannot be written if the minimum lifetime overflows the ledger sequence number; an old one can.
* C98: read by itself, a function of a contract may see its data change in one place only: where it asks for an authorization by its own address (directly or as the deployer of a contract), since `__check_auth` of the running contract may be called. Contract code that reads something before such a request and writes it back afterwards can lose what its `__check_auth` has written. Calls and creations of other contracts are no such places. The reachable states over which C22, C24, C49 and others quantify include those in which constructors start and run.
* C99: an invariant of a contract has to be stable under the end of any of its temporary entries at any time between two functions (`Faded`): a transaction that does not declare an expired entry leaves it in the ledger, one that declares it sees it gone. Persistent entries and the instance come back with the values they had when they are restored (C39), so they need no such condition.
* C100: new collections are copied before they are paid for (the comment in `from_exact_iter` says so), so an operation can be ahead of its charges by one collection; the theorem has this as its only exception. In a map's `remove` the entry found is read again without a charge of its own: the charge for the search has room for one more entry. The vector's own `iter` does not charge: its callers do, and they are not part of this property.
* C101: `emulate_authentication` runs at the end of the outermost call, on the ledger as the call has left it. If the call changes an executable reference through which a signer gets its code, and does not call the signer, the code the signer has when it is asked (before the change) is not declared: the transaction with the recorded footprint then fails with `Storage, ExceededLimit` although the simulation has succeeded (`C101_changed_reference`).
* C102: an element of the vector is converted only when the loop reaches it, so a list with a malformed element fails with the error of an earlier element if there is one; more than twenty elements are refused before any is looked at. Neither makes a malformed value acceptable.
* C103: `Option<Option<T>>`, `Option<()>`, `Option<Result<(), E>>`, `Result<Error, E>`, `Result<Option<Error>, E>` and other such types can be written to the host but do not all come back: `Some(None)` is read as `None` and `Ok(e)` as `Err(e)` (`C103_void_is_nothing`, `C103_error_is_failure`, `C103_told_apart`). The types are not rejected by the compiler.
* C104: `Compare<Symbol>` of soroban-env-common compares tags first. A short symbol in an object, as `symbol_new_from_linear_memory` makes it, is therefore greater than every symbol in a word, also than the same text, although the comparison of host values calls these equal (`C104_other_form`, `C104_forms_told_apart`). The host itself compares symbols as values.
* C105: a value that is too deep or too long for XDR is (Context, ExceededLimit), which a caller can catch, unlike the limits of the budget and the footprint (`C105_input`).
* C106: the numbers contracts get for their objects are places in the table of their frame, so they are the same with and without diagnostics. The one thing that can differ is when the table of the host is full (2^31 objects), which the budget rules out; the model counts one object for each call and each eight bytes of memory, since a call that fails has made objects too. Functions on the ledger are covered whatever they do, as long as they use their arguments as ledger values. Instance storage keeps host values until the end of a frame, and events until the end of the transaction; both are covered as the code has them (reloading the instance storage of other frames of the same contract is not: `try_call` never enters a contract twice). What diagnostics cost is not part of this claim: they are charged to a budget of their own (C13).
* C107: the ledger information is a parameter (the embedder sets it once per transaction); reading it is not metered in the model.
* C108: when trees are begun and how they grow is arbitrary here and modelled for C57; the ledger is the set of its nonces, and the XDR round trip of the entries is left out. The random numbers are part of the history. A clash of nonces fails the request, so distinctness does not rest on chance.
* e2e: a footprint key listed as read-only and as read-write is enforced as read-only but reported twice.

## Testing the theorems

Each line of `seeded/LOG.jsonl` is a change of a model definition like a bug would make it, with the theorems that stopped proving.
Changes that nothing noticed led to new or stronger theorems (field `tightened`).
