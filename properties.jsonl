{"id": "C01", "title": "Small integer values decode to the integer they encode", "statement": "Converting an integer of any supported type (u32, i32, u64, i64, timepoint, duration, u128, i128, u256, i256) to a Val without the environment succeeds exactly when the integer is in the documented small range, and reading the Val back with the same type gives the same integer; the Val carries that type's tag, so it cannot be read back as another type.", "quantifier": "all integers of each type; all 2^64 payloads for the read direction", "why_tests_cant": "the ranges have up to 2^256 values; boundary tests miss sign-extension and truncation bugs away from the sampled points", "anchors": ["soroban-env-common/src/num.rs: is_small_u64..is_small_i256, U64Small::try_from, I64Small::try_from", "soroban-env-common/src/val.rs: from_body_and_tag, get_body, get_signed_body, from_major_minor_and_tag"]}
{"id": "C02", "title": "Short symbols round-trip and sort like their text", "statement": "A byte string of at most 9 characters drawn from [a-zA-Z0-9_] encodes to a small Symbol whose characters are exactly that string, encoding is injective, any other string is rejected, and comparing two encoded symbols gives the lexicographic order of the strings.", "quantifier": "all byte strings and all pairs of byte strings", "why_tests_cant": "the encoding is a 54-bit packing with leading zero codes; sampled strings do not show order preservation for every pair of lengths", "anchors": ["soroban-env-common/src/symbol.rs: SymbolSmall::try_from_bytes, encode_byte, SymbolSmallIter, Ord for SymbolSmall"]}
{"id": "C03", "title": "Every 64-bit word is classified, and every constructed value passes validation", "statement": "The host's integrity check on raw 64-bit words sent by a guest accepts exactly the words of the documented layout, and every word produced by the host's own constructors is accepted.", "quantifier": "all 2^64 words; all inputs of the constructors", "why_tests_cant": "2^64 words cannot be enumerated", "anchors": ["soroban-env-common/src/val.rs: Val::is_good, Tag::from_u8, Tag::get_tag", "soroban-env-common/src/error.rs: TryFrom<Error> for ScError"]}
{"id": "C04", "title": "Ledger values survive the trip through the host", "statement": "Every ScVal the host accepts converts to a Val (allocating objects as needed) and converting that Val back yields the same ScVal; values the host does not support are rejected, and objects allocated by the conversion never alter the meaning of existing values.", "quantifier": "all ScVals of any nesting and size, all prior host object tables", "why_tests_cant": "ScVals are trees of unbounded size; object sharing and numbering depend on prior history", "anchors": ["soroban-env-common/src/convert.rs: TryFromVal<E, ScVal> for Val, TryFromVal<E, Val> for ScVal", "soroban-env-host/src/host/conversion.rs: to_host_obj, from_host_obj", "soroban-env-common/src/object.rs: ScValObjRef::classify"]}
{"id": "C05", "title": "Host comparison of values is a total order that ignores representation", "statement": "obj_cmp / Val comparison returns the same result as comparing the XDR values the two Vals denote, so it is a total order, and it does not depend on whether an integer or symbol is held inline or as an object.", "quantifier": "all pairs and triples of valid values of any nesting", "why_tests_cant": "transitivity and consistency are statements over all triples of unbounded trees", "anchors": ["soroban-env-common/src/compare.rs: Compare<Val>", "soroban-env-host/src/host/comparison.rs: Compare<HostObject>, Compare<ScVal>", "soroban-env-host/src/host.rs: obj_cmp", "soroban-env-host/src/host_object.rs: try_compare_to_small"]}
{"id": "C06", "title": "Host maps behave as finite maps", "statement": "map_put, map_get, map_has, map_del, map_len, map_keys, map_values, map_key_by_pos and map_val_by_pos agree with a finite map from keys to values listed in key order; map_get/map_del of an absent key and positions past the end fail; a map handle's contents never change after creation.", "quantifier": "all sequences of map operations and all keys under a total order", "why_tests_cant": "needs every history of operations; binary-search bugs appear only at particular sizes", "anchors": ["soroban-env-host/src/host/metered_map.rs: MeteredOrdMap", "soroban-env-host/src/host.rs: map_put..map_values"]}
{"id": "C07", "title": "Maps built from raw key lists are accepted exactly when strictly ascending", "statement": "Building a map from a list of pairs succeeds exactly when keys are strictly increasing, and then the map contains exactly those pairs; sparse construction additionally drops exactly the void-valued pairs while still checking the order of all keys.", "quantifier": "all lists of pairs", "why_tests_cant": "lists are unbounded; the order check must hold at every adjacent position", "anchors": ["soroban-env-host/src/host/metered_map.rs: from_map", "soroban-env-host/src/host/data_helper.rs: map_new_from_slices_impl, map_unpack_impl"]}
{"id": "C08", "title": "Host vectors behave as sequences", "statement": "vec_get, vec_put, vec_insert, vec_del, vec_push_front/back, vec_pop_front/back, vec_front/back, vec_append, vec_slice, vec_first_index_of and vec_last_index_of agree with the same operations on a mathematical sequence, and fail exactly when the index or range is out of bounds or the length would not fit in 32 bits.", "quantifier": "all sequences of vector operations, all indices and lengths", "why_tests_cant": "histories are unbounded and the index arithmetic involves every u32", "anchors": ["soroban-env-host/src/host/metered_vector.rs: MeteredVector", "soroban-env-host/src/host.rs: vec_put..vec_last_index_of"]}
{"id": "C09", "title": "Binary search on a sorted vector finds the element or its insertion point", "statement": "vec_binary_search on a vector sorted by the host's order reports Found(i) only when element i equals the key and NotFound(i) only when every element before i is smaller and every element from i on is larger; in particular it finds the key whenever present.", "quantifier": "all sorted vectors of any length and all keys", "why_tests_cant": "off-by-one in bisection depends on length and position; lengths are unbounded", "anchors": ["soroban-env-host/src/host/metered_vector.rs: binary_search_by_pre_rust_182", "soroban-env-host/src/host.rs: vec_binary_search"]}
{"id": "C10", "title": "Object handles seen by one contract cannot name another contract's objects", "statement": "A guest can only use a handle it has been given: a relative handle resolves to the object that was passed to that frame under that handle, with the same type, and any other handle (forged, absolute, mistyped, from another frame) is rejected; resolving after translating gives back the original value. This holds through every host call, including those that read values from and write values to linear memory, and whatever the guest writes to its memory.", "quantifier": "all histories of translations in any number of frames, all 64-bit words", "why_tests_cant": "the isolation claim is over every forged word and every history", "anchors": ["soroban-env-host/src/host_object.rs: relative_to_absolute, absolute_to_relative, index_to_handle, handle_to_index, visit_obj_untyped"]}
{"id": "C11", "title": "Budget is enforced and never rolls over", "statement": "Each metered charge adds exactly the cost given by the cost model to the CPU and memory totals (saturating at u64::MAX); the charge succeeds if and only if both totals are within the limits afterwards; the CPU total never decreases, and the memory total decreases only by the refund made when a frame is popped; so once the CPU limit is exceeded every later charge fails until the budget is reset, whatever errors are caught in between, and likewise for memory until a refund.", "quantifier": "all sequences of charges of all sizes", "why_tests_cant": "overflow and ordering effects need all sequences and all u64 inputs", "anchors": ["soroban-env-host/src/budget.rs: BudgetImpl::charge", "soroban-env-host/src/budget/dimension.rs: charge, check_budget_limit, refund"]}
{"id": "C12", "title": "Cost model evaluation is the documented linear function, saturating and monotone", "statement": "The cost of n iterations on an input of size x is n*const + floor(n*linear*x/128) capped at u64::MAX whenever n*linear*x fits 64 bits; it never wraps around: it is monotone in n, x and both coefficients, never above the exact value, and at least 2^57-1 when the product does not fit; parameters are rejected exactly when a coefficient is negative.", "quantifier": "all u64 iterations and inputs, all coefficients", "why_tests_cant": "64-bit saturating arithmetic over five variables", "anchors": ["soroban-env-host/src/budget/model.rs: evaluate, ScaledU64"]}
{"id": "C13", "title": "Diagnostics (shadow budget) never change the observable budget", "statement": "Any metered work run in shadow mode leaves the real CPU and memory totals, limits and per-cost counters unchanged, whether the work succeeds, fails or exceeds the shadow limits, and shadow mode is restored to what it was.", "quantifier": "all nested computations run in shadow mode", "why_tests_cant": "nesting and failure points are unbounded", "anchors": ["soroban-env-host/src/budget.rs: with_shadow_mode", "soroban-env-host/src/budget/util.rs: with_observable_shadow_mode"]}
{"id": "C14", "title": "Recursion depth is bounded and restored", "statement": "Nested depth-limited operations fail with Context/ExceededLimit exactly when nesting exceeds the limit, and after any computation (success or failure) the remaining depth is what it was before.", "quantifier": "all nesting trees of depth-limited operations with failures anywhere", "why_tests_cant": "tree shapes and failure points are unbounded", "anchors": ["soroban-env-host/src/budget/limits.rs: DepthLimiter, with_limited_depth"]}
{"id": "C15", "title": "Memory refunds never hide peak usage", "statement": "The reported memory consumption is the maximum, over the whole history, of (charged minus refunded) memory; refunds free budget for later charges but never lower the reported peak, and the peak never exceeds the limit on a history in which all charges succeeded.", "quantifier": "all interleavings of charges and refunds", "why_tests_cant": "history property", "anchors": ["soroban-env-host/src/budget/dimension.rs: charge, refund, get_total_count", "soroban-env-host/src/host/frame.rs: pop_context, reclaim_frame_linear_mem_since"]}
{"id": "C16", "title": "Fuel handed to the VM is never worth more than the remaining CPU budget", "statement": "Converting remaining CPU budget into VM fuel and charging consumed fuel back never lets a guest run more than the remaining CPU budget permits: fuel * cost-per-fuel <= remaining, and after returning unused fuel the total charged equals the fuel consumed times its cost.", "quantifier": "all budgets, costs and fuel consumptions", "why_tests_cant": "64-bit integer division round trip", "anchors": ["soroban-env-host/src/budget.rs: get_wasmi_fuel_remaining", "soroban-env-host/src/vm/fuel_refillable.rs"]}
{"id": "C17", "title": "Declared footprint is enforced", "statement": "In enforcing mode every storage read requires the key to be in the declared footprint and every write, delete or creation requires it to be declared read-write; otherwise the operation fails with Storage/ExceededLimit and changes nothing.", "quantifier": "all footprints, all sequences of storage operations", "why_tests_cant": "must hold for all histories", "anchors": ["soroban-env-host/src/storage.rs: Footprint::enforce_access, Storage::try_get_full_helper, put_opt_helper, has"]}
{"id": "C18", "title": "Storage reads return the last write", "statement": "After any history of put/del on keys in the footprint, get/has of a key returns the value of the most recent put (nothing after a del), or the initial ledger value if never written; operations on one key never affect another.", "quantifier": "all histories over any set of keys", "why_tests_cant": "history property", "anchors": ["soroban-env-host/src/storage.rs: get, put, del, has, put_opt_helper"]}
{"id": "C19", "title": "Recorded footprints replay", "statement": "If a sequence of storage operations runs in recording mode, then running the same sequence in enforcing mode with the recorded footprint and the same ledger entries gives the same results for every operation.", "quantifier": "all operation sequences and ledger snapshots (entries live)", "why_tests_cant": "simulation between two modes over all histories", "anchors": ["soroban-env-host/src/storage.rs: prepare_read_only_access, record_access, enforce_access", "soroban-env-host/src/e2e_invoke.rs: invoke_host_function_in_recording_mode"]}
{"id": "C20", "title": "TTL extension never shortens a lifetime and never exceeds the network maximum", "statement": "extend_ttl and its bounded variant never decrease an entry's live-until ledger, never raise it beyond the network maximum, extend exactly when the documented threshold condition holds and to exactly the documented ledger, and never change the entry's data or any other entry.", "quantifier": "all ledger sequence numbers, TTL settings, thresholds and extension amounts", "why_tests_cant": "u32 arithmetic over six parameters", "anchors": ["soroban-env-host/src/storage.rs: extend_ttl, extend_ttl_v2, prepare_extend_ttl, apply_ttl_extension", "soroban-env-host/src/ledger_info.rs"]}
{"id": "C21", "title": "Expired entries: temporary ones are gone, persistent ones are restored", "statement": "In recording mode reading a key whose entry has expired yields absent for temporary entries; for persistent entries the data is restored with the minimum persistent TTL and the key is recorded read-write. Live entries are returned unchanged.", "quantifier": "all keys, entries, TTLs and ledger numbers", "why_tests_cant": "all combinations of u32 ledger values and histories", "anchors": ["soroban-env-host/src/storage.rs: handle_maybe_expired_entry, prepare_read_only_access"]}
{"id": "C22", "title": "A failed contract call leaves no trace in storage, events or authorizations", "statement": "If a call returns an error, the ledger storage, the set of successful contract events and the authorization state afterwards are exactly what they were before the call, no matter what the callee and its nested calls did. (While footprints are being recorded, the recorded footprint may have grown; the visible ledger is unchanged.)", "quantifier": "all call trees with failures at any point", "why_tests_cant": "failure points in call trees are unbounded", "anchors": ["soroban-env-host/src/host/frame.rs: with_frame, push_context, pop_context", "soroban-env-host/src/events/internal.rs: rollback", "soroban-env-host/src/auth.rs: snapshot, rollback, pop_frame"]}
{"id": "C23", "title": "try_call catches recoverable errors only", "statement": "try_call turns a recoverable callee error into an error value and keeps everything rolled back; internal errors, budget exhaustion and out-of-footprint errors always abort the whole invocation; contract errors are passed through with their code and other errors are reported as Context/InvalidAction.", "quantifier": "all error types and codes, all call trees", "why_tests_cant": "decision over every error kind at any depth", "anchors": ["soroban-env-host/src/host.rs: try_call", "soroban-env-host/src/host/error.rs: is_recoverable"]}
{"id": "C24", "title": "Reentrancy is impossible through call and try_call", "statement": "At every moment no contract appears twice on the call stack through call/try_call; a call to a contract already on the stack fails with Context/InvalidAction and has no effect.", "quantifier": "all call histories", "why_tests_cant": "invariant over all histories", "anchors": ["soroban-env-host/src/host/frame.rs: call_n_internal, ContractReentryMode"]}
{"id": "C25", "title": "Reserved functions cannot be called by users", "statement": "Functions whose name starts with two underscores can only be invoked by the host itself (constructor, account check); any external call fails with Context/InvalidAction.", "quantifier": "all function names and call sites", "why_tests_cant": "all names", "anchors": ["soroban-env-host/src/host/frame.rs: call_n_internal"]}
{"id": "C26", "title": "Call depth is bounded and the context stack is balanced", "statement": "A call fails with Context/ExceededLimit when the host call depth limit is reached; after any call returns (success or error) the context stack is exactly what it was before.", "quantifier": "all call trees", "why_tests_cant": "unbounded trees", "anchors": ["soroban-env-host/src/host/frame.rs: with_frame_and_initial_mem_charge"]}
{"id": "C27", "title": "require_auth succeeds only with matching authorization, each node used once", "statement": "In enforcing mode require_auth(address) for an invocation succeeds only if address is the direct invoker contract, or a contract-supplied or user-supplied authorization entry for that address contains an unused node equal to that invocation whose parent node was matched in an enclosing frame; the node is then used up and cannot authorize again.", "quantifier": "all authorization forests, all call trees with require_auth anywhere", "why_tests_cant": "trees and histories unbounded", "anchors": ["soroban-env-host/src/auth.rs: require_auth, maybe_extend_invocation_match, maybe_authorize_invocation"]}
{"id": "C28", "title": "Authorization state is rolled back exactly with failed calls", "statement": "After a failed call, the used/unused status of every authorization node of the transaction's entries, the verification status of every entry, their tracker stacks and the contract-supplied authorizations that were already in scope are exactly those before the call; entries usable before the call remain usable. (Authorizations that a contract supplied for the failed call itself are dropped, as they are after a successful call.)", "quantifier": "all authorization forests and all sequences of nested calls and require_auth inside the failed call", "why_tests_cant": "history property", "anchors": ["soroban-env-host/src/auth.rs: push_frame, pop_frame, snapshot, rollback"]}
{"id": "C29", "title": "A signed authorization can be used at most once", "statement": "Each address-credential authorization consumes its (address, nonce) on first use and any later use of the same pair, in any later ledger up to its expiration, is rejected; an expired signature or one with expiration beyond the maximum TTL is rejected.", "quantifier": "all sequences of transactions and ledgers", "why_tests_cant": "replay over unbounded histories of ledgers", "anchors": ["soroban-env-host/src/auth.rs: verify_and_consume_nonce, consume_nonce", "soroban-env-host/src/ledger_info.rs"]}
{"id": "C30", "title": "Resource fees round up and never undercharge", "statement": "Each component of the transaction resource fee is the least integer at least rate*resource/increment (saturating at i64::MAX); fees are non-negative, monotone in every resource, and the refundable part depends only on event size.", "quantifier": "all u32 resource amounts and non-negative i64 rates", "why_tests_cant": "i64 arithmetic over 7 resources and 8 rates", "anchors": ["soroban-env-host/src/fees.rs: compute_transaction_resource_fee, compute_fee_per_increment"]}
{"id": "C31", "title": "Rent fees: monotone, non-negative, no discount for splitting", "statement": "Rent is non-negative, zero for an entry that is neither extended nor grown, monotone in size and extension length, and extending an entry in two steps costs at least as much as extending it once by the total.", "quantifier": "all entry sizes, ledgers and configurations", "why_tests_cant": "u32/i64 parameters and lists of entries of unbounded length", "anchors": ["soroban-env-host/src/fees.rs: compute_rent_fee, rent_fee_per_entry_change, rent_fee_for_size_and_ledgers"]}
{"id": "C32", "title": "Rent write fee grows with state size from its floor", "statement": "The per-1KB rent write fee is at least the fixed minimum, non-decreasing in the state size, equals the low rate at size zero and the high rate at the target size, and never overflows.", "quantifier": "all state sizes and rate configurations", "why_tests_cant": "i64/i128 arithmetic", "anchors": ["soroban-env-host/src/fees.rs: compute_rent_write_fee_per_1kb"]}
{"id": "C33", "title": "Token transfers conserve supply", "statement": "transfer and transfer_from move exactly the amount from one non-issuer holder to another: the sum of all non-issuer balances is unchanged; mint raises and burn/burn_from/clawback lower it by exactly the amount; failures change nothing.", "quantifier": "all balances, amounts, holders (accounts and contracts) and histories of operations", "why_tests_cant": "sum over unbounded holders and histories", "anchors": ["soroban-env-host/src/builtin_contracts/stellar_asset_contract/contract.rs", "soroban-env-host/src/builtin_contracts/stellar_asset_contract/balance.rs"]}
{"id": "C34", "title": "Token balances stay within bounds", "statement": "No balance ever becomes negative; account balances respect reserves and liabilities; trustline balances stay within selling liabilities and limit minus buying liabilities; amounts that do not fit are rejected.", "quantifier": "all histories of token operations", "why_tests_cant": "history property", "anchors": ["soroban-env-host/src/builtin_contracts/stellar_asset_contract/balance.rs: transfer_account_balance, transfer_trustline_balance, receive_balance, spend_balance_no_authorization_check"]}
{"id": "C35", "title": "Every debit is authorized by the right party", "statement": "A successful transfer/burn requires the holder's authorization; transfer_from/burn_from the spender's; mint, clawback, set_authorized, set_admin the administrator's; negative amounts are always rejected.", "quantifier": "all calls and states", "why_tests_cant": "all states and arguments", "anchors": ["soroban-env-host/src/builtin_contracts/stellar_asset_contract/contract.rs"]}
{"id": "C36", "title": "Deauthorized balances are frozen", "statement": "While a holder's balance is not authorized it can neither send nor receive (except clawback by the administrator of a clawback-enabled balance).", "quantifier": "all histories", "why_tests_cant": "history property", "anchors": ["soroban-env-host/src/builtin_contracts/stellar_asset_contract/balance.rs: is_authorized, receive_balance, spend_balance, check_clawbackable"]}
{"id": "C37", "title": "Allowances are never overspent", "statement": "The total spent by a spender through transfer_from/burn_from since the last approve never exceeds the approved amount; an allowance reads as zero after its expiration ledger; approve overwrites.", "quantifier": "all histories of approve and spends over increasing ledgers", "why_tests_cant": "history property", "anchors": ["soroban-env-host/src/builtin_contracts/stellar_asset_contract/allowance.rs"]}
{"id": "C38", "title": "An approved allowance stays available until its expiration ledger", "statement": "After approve(amount>0, L) succeeds and absent spending, the allowance reads as that amount at every ledger up to and including L.", "quantifier": "all prior histories of approvals", "why_tests_cant": "depends on the history of previous approvals and TTLs", "anchors": ["soroban-env-host/src/builtin_contracts/stellar_asset_contract/allowance.rs: write_allowance", "soroban-env-host/src/storage.rs: extend_ttl", "soroban-env-host/src/host/data_helper.rs: put_contract_data_into_ledger"]}
{"id": "C39", "title": "Failed invocations return no ledger changes and no events", "statement": "invoke_host_function returns an empty change list and no contract events whenever the invocation result is an error.", "quantifier": "all inputs", "why_tests_cant": "all failure modes", "anchors": ["soroban-env-host/src/e2e_invoke.rs: invoke_host_function"]}
{"id": "C40", "title": "Ledger changes never modify read-only data and never reduce TTLs", "statement": "On success there is one change per footprint key; read-only keys carry no new value; the reported new live-until is never below the old one for existing entries; removed entries carry no value.", "quantifier": "all footprints and final storages", "why_tests_cant": "all footprints and histories", "anchors": ["soroban-env-host/src/e2e_invoke.rs: get_ledger_changes, extract_rent_changes"]}
{"id": "C41", "title": "Contract events are independent of diagnostics and preserve order", "statement": "The returned contract events are exactly those emitted in frames all of whose enclosing calls succeeded, in emission order, regardless of whether diagnostic events are enabled. With diagnostics enabled, all contract events and all recorded diagnostics are shown in order, each with whether all calls around it succeeded.", "quantifier": "all histories of emissions, nested calls and failures", "why_tests_cant": "histories unbounded", "anchors": ["soroban-env-host/src/events/internal.rs: record, rollback, externalize", "soroban-env-host/src/e2e_invoke.rs: encode_contract_events"]}
{"id": "C42", "title": "Token events account exactly for balance changes", "statement": "For every address other than the issuer, the transfer, mint, burn and clawback events emitted by successful calls add up to exactly the change of its balance; failed calls emit nothing.", "quantifier": "all calls, holders and histories of token operations", "why_tests_cant": "relates unbounded histories to state; includes self-transfers and transfers from and to the issuer", "anchors": ["soroban-env-host/src/builtin_contracts/stellar_asset_contract/contract.rs", "soroban-env-host/src/builtin_contracts/stellar_asset_contract/event.rs"]}
{"id": "C43", "title": "Token queries report the ledger and change nothing", "statement": "balance, allowance, authorized and admin answer exactly what the ledger holds (the issuer's balance reads as the largest 64-bit integer), change no value, emit no event and need no authorization.", "quantifier": "all states and addresses", "why_tests_cant": "all reachable states", "anchors": ["soroban-env-host/src/builtin_contracts/stellar_asset_contract/balance.rs: read_balance, is_authorized", "soroban-env-host/src/builtin_contracts/stellar_asset_contract/allowance.rs: read_allowance", "soroban-env-host/src/builtin_contracts/stellar_asset_contract/admin.rs: read_administrator"]}
{"id": "C44", "title": "Rent is charged as if every change had been passed to the rent computation", "statement": "The list of rent changes extracted from the ledger changes leaves out only changes that are free: the rent fee computed from it equals the rent fee computed from the changes of all entries that have a lifetime.", "quantifier": "all lists of ledger changes, fee configurations and ledger sequences", "why_tests_cant": "an omitted change that is not free would undercharge only for particular combinations of sizes and lifetimes", "anchors": ["soroban-env-host/src/e2e_invoke.rs: extract_rent_changes", "soroban-env-host/src/fees.rs: compute_rent_fee"]}
{"id": "C45", "title": "A contract's entries are changed only by its own code", "statement": "While none of a contract's own functions runs (called, as a constructor, or as __check_auth), no other code can add, change or delete its data entries, extend the lifetime of its ordinary data, or change its instance's executable or instance storage; others can only extend the lifetime of its instance and of the executable tags to which other contracts refer. So a contract is upgraded only by itself.", "quantifier": "all programs, all transactions, all contracts, all results (success or failure), enforcing and recording mode", "why_tests_cant": "isolation from arbitrary other contracts, call patterns and failures", "anchors": ["soroban-env-host/src/host.rs: put_contract_data, del_contract_data, extend_contract_data_ttl, update_current_contract_wasm", "soroban-env-host/src/host/data_helper.rs: store_contract_instance, put_contract_data_into_ledger", "soroban-env-host/src/host/frame.rs: persist_instance_storage"]}
{"id": "C46", "title": "Deployed contracts, code and executable tags do not go away", "statement": "No code can delete a contract instance, uploaded code or an executable tag from the ledger, or shorten the lifetime of a contract instance.", "quantifier": "all programs and transactions, all results", "why_tests_cant": "absence of any operation or sequence that removes an entry", "anchors": ["soroban-env-host/src/host/lifecycle.rs", "soroban-env-host/src/host.rs: del_contract_data", "soroban-env-host/src/host/data_helper.rs: store_contract_instance"]}
{"id": "C47", "title": "Contracts are created under new identifiers, with their deployer's authorization", "statement": "Creating a contract succeeds only if no contract has the identifier derived from the creation arguments, not even one created while the authorization was checked; the new contract has the executable that was asked for and no storage until its own code runs; and a contract is created for a deployer only if the deployer authorized exactly this creation, with these constructor arguments. If the code of the new contract supports constructors, its constructor has run with the given arguments and returned no value; otherwise no arguments were given.", "quantifier": "all states, creation arguments, authorization entries, __check_auth and constructor codes", "why_tests_cant": "arbitrary code runs in between (account contracts, constructors)", "anchors": ["soroban-env-host/src/host/lifecycle.rs: create_contract_internal, create_contract_with_optional_auth, create_contract_with_id"]}
{"id": "C48", "title": "Uploading code stores exactly that code", "statement": "A successful upload leaves the code in the ledger and changes no other entry; uploading code that is there already changes nothing, so an upload can be repeated.", "quantifier": "all states and codes", "why_tests_cant": "all ledger states", "anchors": ["soroban-env-host/src/host/lifecycle.rs: upload_contract_wasm"]}
{"id": "C49", "title": "Instance storage behaves as one map per contract", "statement": "What a contract's code reads from its instance storage is what was last written to it by its own code in this transaction, in this frame or in another one (also in its own __check_auth run by the host in the middle of a function), or what the ledger had; calls, returns, upgrades, other storage functions and other contracts do not change it, failed calls leave it as it was before them, and the ledger after a successful transaction has it.", "quantifier": "all states, contracts, codes, call and re-entry patterns of all transactions", "why_tests_cant": "each frame has its own copy that is written back and reloaded at frame boundaries; coherence must hold for every nesting of frames and failures", "anchors": ["soroban-env-host/src/host/frame.rs: maybe_init_instance_storage, persist_instance_storage, maybe_reload_instance_storage_on_frame_pop, with_frame_and_initial_mem_charge, call_n_internal", "soroban-env-host/src/host/data_helper.rs: with_instance_storage, with_mut_instance_storage, store_contract_instance"]}
{"id": "C50", "title": "A Stellar account authorizes only with enough signature weight", "statement": "The host accepts the signatures of a Stellar account for a payload exactly if there are 1 to 20 of them, their public keys are strictly increasing, every one is a valid signature of the payload, every key is a signer of the account with a weight above zero (weights above 255 count as 255), and the weights add up to the medium threshold of the account as it is in the ledger at that moment. In particular keys whose weights are together below the threshold can never authorize, whatever signature value is supplied, and keys that are no signers cannot even if the threshold is zero.", "quantifier": "every account entry, payload, signature value and set of keys; every state of every transaction", "why_tests_cant": "A forged authorization may use any combination, order or repetition of signatures; tests only try some signature lists.", "anchors": ["soroban-env-host/src/builtin_contracts/account_contract.rs:check_account_authentication", "soroban-env-host/src/host/data_helper.rs:get_signer_weight_from_account"]}
{"id": "C51", "title": "A signature is for one network, nonce, expiration and tree of invocations", "statement": "Two authorization entries have the same signature payload only if they agree in the network, the nonce, the expiration ledger and the whole tree of authorized invocations (and, for the newer kinds of credentials, the address), so a signature cannot be moved to another entry. The payload of an entry does not change while the entry is being used. An account contract is given a context for every invocation of the tree, in order, so nothing it authorizes is hidden from it.", "quantifier": "every pair of entries, every tree of any size and depth, every state of every transaction; assuming the hash is collision-free", "why_tests_cant": "Binding is a statement about all pairs of entries, and trees have no size limit.", "anchors": ["soroban-env-host/src/auth.rs:get_signature_payload", "soroban-env-host/src/auth.rs:to_xdr", "soroban-env-host/src/builtin_contracts/account_contract.rs:invocation_tree_to_auth_contexts"]}
{"id": "C52", "title": "Delegated signers are used once, where they are listed, with their own signature", "statement": "An account contract can pass its authentication on to a signer only from its `__check_auth` function, only if the signer is listed in the authorization entry directly below the signer that passes it on, and only once. The signer is authenticated with the signature listed for it and with the payload and context of the entry. A failed call made during an authentication has no effect on which signers are used, and code other than `__check_auth` cannot use the signers of an entry that is being authenticated.", "quantifier": "every tree of signers, every code of the contracts involved, with calls, failures, nested authentications and delegations to any depth", "why_tests_cant": "The trackers are shared, mutable and only partly covered by snapshots; whether a rollback is complete depends on the nesting of frames, which has no bound.", "anchors": ["soroban-env-host/src/auth.rs:delegate_account_auth", "soroban-env-host/src/auth.rs:try_push_delegated_auth_frame", "soroban-env-host/src/auth.rs:DelegatedAccountAuthTracker", "soroban-env-host/src/host/frame.rs:ensure_check_auth_frame"]}
{"id": "C53", "title": "Every contract call has its own stream of pseudo-random numbers", "statement": "Each frame that uses the prng functions gets a generator of its own, seeded with its own draw from the generator of the transaction, in the order of first use. What it gets depends only on the seed of the transaction, its place in that order and its own requests: callers, callees and failed calls cannot influence or replay it, and a failed call does not give its draw back. After prng_reseed the results depend on that seed only. prng_u64_in_inclusive_range returns a number in the range and fails exactly if the range is empty, prng_vec_shuffle returns a permutation, prng_bytes_new as many bytes as requested.", "quantifier": "all transaction seeds, all programs of nested calls, caught failures and prng requests, all generators", "why_tests_cant": "The independence of streams is a statement about every pair of transactions that share a frame; tests compare a few.", "anchors": ["soroban-env-host/src/host/prng.rs: Prng::sub_prng, Prng::u64_in_inclusive_range, Prng::vec_shuffle, Prng::bytes_new", "soroban-env-host/src/host/frame.rs: with_current_prng", "soroban-env-host/src/host.rs: prng_reseed, set_base_prng_seed"]}
{"id": "C54", "title": "Linear memory functions read and write exactly the bytes their arguments name", "statement": "A host function that copies an object's bytes to a contract's memory, makes a byte string, string, symbol, vector or map from it, unpacks a vector or a map to it, or searches a symbol among slices in it, succeeds exactly if every range it is given lies within the memory (and the object) and the data there is of the right form. Then it reads exactly the named bytes, little-endian words and (pointer, length) slices, gives exactly the object or the words that they stand for, and changes no byte outside the named destination; the size of the memory never changes, no other host function changes the memory, and no object that already exists is ever changed by any of them. Words written stand for the same values in the frame that words read do. A call with words that stand for the values a function works on reaches that function, and is refused unless its numbers are numbers of 32 bits.", "quantifier": "all memories, object tables, handle tables, positions, lengths, keys and values, and all sequences of host calls and guest writes", "why_tests_cant": "Off-by-one bounds, overflow of position plus length, byte order and handle translation errors show only for particular positions, sizes and histories of handles.", "anchors": ["soroban-env-host/src/host/mem_helper.rs: metered_vm_read_vals_from_linear_memory, metered_vm_write_vals_to_linear_memory, metered_vm_scan_slices_in_linear_memory, memobj_copy_to_linear_memory", "soroban-env-host/src/host/data_helper.rs: map_new_from_linear_memory_impl, map_unpack_to_linear_memory_impl", "soroban-env-host/src/host.rs: vec_new_from_linear_memory, vec_unpack_to_linear_memory, symbol_index_in_linear_memory, bytes_copy_from_linear_memory"]}
{"id": "C55", "title": "Byte strings behave as finite sequences of bytes", "statement": "Each host function on byte strings, strings and symbols (new, put, get, del, len, push, pop, front, back, insert, append, slice, the conversions between strings and byte strings, and the lengths of strings and symbols) succeeds exactly if the operation of that name is defined on the sequence of bytes: the index is within the sequence (or at its end, for insert), the start is not after the end, the byte is less than 256 and the result is shorter than 2^32. It then gives exactly the sequence or byte that the operation gives, as a new object or a number, and leaves its arguments as they are.", "quantifier": "all byte sequences, indices, bytes and object tables", "why_tests_cant": "Boundary indices and lengths range over all of u32 and all contents.", "anchors": ["soroban-env-host/src/host.rs: bytes_put, bytes_get, bytes_del, bytes_push, bytes_pop, bytes_front, bytes_back, bytes_insert, bytes_append, bytes_slice, string_to_bytes, bytes_to_string", "soroban-env-host/src/host/validity.rs: validate_index_lt_bound, validate_index_le_bound, valid_range_from_u32_start_end_bound"]}
{"id": "C56", "title": "Numbers come back as they were given and 256-bit arithmetic is exact", "statement": "A number given to the host as a word, as 64-bit pieces or as 32 big-endian bytes is the number of which these are the digits (in two's complement for signed types), and reading it back gives the same digits; byte strings of any other length are rejected. Addition, subtraction, multiplication, division, Euclidean remainder, power and shifts of 256-bit values give exactly the integer result, with a new object only if it does not fit a value; if there is no result of the type (overflow, division by zero, the least number divided by minus one, a shift by 256 or more) the call fails with (Object, ArithDomain), or gives void in the checked variants. No result is ever wrong or silently wrapped, except that a left shift drops the bits that leave the type.", "quantifier": "all 64-bit words, all numbers of the types in either representation, all operations, all object tables and all later executions", "why_tests_cant": "there are 2^512 pairs of operands for each operation, and the small/object split and the sign boundaries make the exceptional cases sparse", "anchors": ["soroban-env-host/src/host.rs: obj_from_u64, obj_from_i256_pieces, obj_to_i256_hi_hi, u256_val_from_be_bytes, i256_val_to_be_bytes, u256_add, i256_checked_pow", "soroban-env-host/src/host/num.rs: impl_bignum_host_fns", "soroban-env-common/src/convert.rs: TryFromVal<E, Val> for U256, I256", "soroban-env-common/src/num.rs: u256_from_pieces, i256_into_pieces"]}
{"id": "C57", "title": "Authorizations recorded in simulation authorize the transaction", "statement": "The authorization entries recorded while a transaction is simulated, signed and given back with the transaction, authorize every request it makes: each request that was recorded is granted in the same call, and at the end every node of every entry has been used, so nothing superfluous was recorded. Calls that fail leave nothing in the recording. If authorizations outside the outermost call are not allowed, every recorded tree begins with the outermost call itself, otherwise recording fails. (The first claim is false in general: a call that asks for the same address through two address objects can be recorded in a way that is not enough; it is proved for transactions whose calls ask for each address at most once, or that use one object per address; calls may fail and be caught.)", "quantifier": "all sequences of calls, calls that fail and are caught, contract creations, returns, requests and contract authorizations, any nesting, all addresses, object handles and arguments, any nonces and credentials of the signed entries", "why_tests_cant": "whether the search of the enforcing mode retraces the choices of the recording mode depends on the whole history of calls: repeated calls with the same arguments, several trees for the same address and trees that begin at different depths", "anchors": ["soroban-env-host/src/auth.rs: require_auth_recording, record_invocation, new_recording, get_recorded_auth_payloads, require_auth_enforcing, maybe_extend_invocation_match, pop_frame"]}
{"id": "C58", "title": "What a simulation declares is enough for the transaction", "statement": "The transaction data that the simulation of an invocation returns has the recorded footprint, at least the recorded instructions, read bytes and written bytes (with the requested margins, nothing where nothing was used, and within the range of the type), and names exactly the entries to restore. Its fee is at least what the network charges for any transaction that carries the simulated operation with this data, however it is signed and whatever preconditions, memo and source accounts it has, as long as its events and its rent are at most those of the simulation. The estimated size bounds every such transaction. A failed invocation gives no transaction data. The list of modified entries has one item for each entry the invocation could write, with its value before, if it was alive, and after.", "quantifier": "all recorded results of invocations, all adjustment factors (whatever floating-point multiplication does), all fee and rent rates that are not negative, all transactions within the limits of the protocol on signatures, memos and preconditions, all ledgers", "why_tests_cant": "the claim is a bound over every shape of transaction, every resource usage and every configuration, including saturation at the ends of the types and rounding of floating-point products", "anchors": ["soroban-simulation/src/resources.rs: adjust_u32, adjust_i64, compute_resource_fee, compute_adjusted_transaction_resources, estimate_max_transaction_size_for_operation", "soroban-simulation/src/simulation.rs: simulate_invoke_host_function_op, create_transaction_data, extract_modified_entries"]}
{"id": "C59", "title": "Simulated extensions and restorations are of exactly the entries that need them", "statement": "The simulation of an extension declares, sorted and as read-only, exactly the given keys whose entries exist and live less long than asked, and its fee covers the rent of extending exactly these; it fails exactly if a key is of a kind without lifetime or its entry is archived (or a number or the transaction does not fit). The simulation of a restoration declares, sorted and as read-write, exactly the given keys whose entries are archived, with at least their bytes read and written, and its fee covers the rent of creating them anew; it fails exactly if a key is not persistent or has no entry. The automatically restoring ledger source reads as the ledger that contracts see, remembers exactly the archived persistent entries read since it was last reset, simulates the restoration of exactly these, and gives contracts the same results as running over the ledger itself. The source used in simulations only completes the extensions of accounts, which changes nothing the account says.", "quantifier": "all ledgers, all lists of keys, all ledger sequences and lifetimes, all sequences of reads and resets of the sources, all contract programs, all account entries", "why_tests_cant": "the selection of entries depends on each entry's lifetime against the ledger and the requested one, with off-by-one boundaries, and the restoring source has a memory that depends on the history of reads", "anchors": ["soroban-simulation/src/resources.rs: simulate_extend_ttl_op_resources, simulate_restore_op_resources", "soroban-simulation/src/simulation.rs: simulate_extend_ttl_op, simulate_restore_op", "soroban-simulation/src/snapshot_source.rs: AutoRestoringSnapshotSource, SimulationSnapshotSource, update_account_entry"]}
{"id": "C60", "title": "Preflight predicts the submitted transaction", "statement": "Run a transaction with invoke_host_function_in_recording_mode and given authorization entries against a ledger snapshot. It returns unless the result or an event cannot be encoded. If the transaction is then submitted to invoke_host_function with the returned footprint and restored indices, and the network supplies the snapshot's entries (archived entries restored with the minimum lifetime, expired temporary entries missing), it is applied with the same result and the same events, and for every entry that is used by a call that does not fail the reported ledger change has the same key, access, new value, new lifetime and rent. The footprint has no key twice; the restored indices are exactly those of archived entries; the disk read bytes, written bytes and output size are the (saturating) sums of the sizes of what is read from disk, of what is reported as written, and of the result and events. Declaring more keys changes nothing. For entries that are used only by failed calls preflight reports the key without size or rent, so its estimate of written bytes and rent can be too low.", "quantifier": "all contract programs (any calls, try_calls, storage operations, authorizations, deployments), all snapshots with archived, expired and live entries, all authorization entries, both builds of the host (with and without recording support)", "why_tests_cant": "Tests compare preflight and execution for a few contracts; the claim is about every program, every nesting of failed calls and every ledger state, where one access that is not recorded makes the submitted transaction fail.", "anchors": ["soroban-env-host/src/e2e_invoke.rs: invoke_host_function_in_recording_mode, storage_footprint_to_ledger_footprint, get_ledger_changes, add_footprint_only_ledger_changes, build_storage_map_from_xdr_ledger_entries, invoke_host_function", "soroban-env-host/src/storage.rs: Storage::with_recording_footprint, Footprint::record_access, Storage::handle_maybe_expired_entry"]}
{"id": "C61", "title": "A host runs exactly the code that was built for it", "statement": "Contract code is accepted (by an upload, by a call, by the module cache) exactly when it validates and decodes, none of its exported functions has more than 32 arguments or results, its environment metadata section declares an interface version that is not from the future (and is final if it is of an older protocol), every import is a 64-bit host function of the table, with its number of arguments, available both in the declared protocol and in the ledger's, the ledger's protocol is the host's, there is no start function, and its memories can be allocated. Code once uploaded can then be run, with or without a module cache and in simulation; imported functions never fail because of the protocol; code accepted by a released host keeps being accepted by every later released host that still offers the functions it imports. No two host functions of this host share a name.", "quantifier": "all codes (the decoders are arbitrary functions), all host versions and tables of host functions, all ledger protocols, all caches in all reachable states", "why_tests_cant": "Tests try a handful of modules on the current host; the claim ranges over all modules, versions, tables of functions and later hosts.", "anchors": ["soroban-env-host/src/vm/parsed_module.rs: parse_wasm, check_contract_interface_version, check_meta_section, check_max_args, make_wasmi_linker, with_import_symbols", "soroban-env-host/src/vm.rs: Vm::instantiate_wasmi, check_contract_imports_match_host, from_parsed_module_and_wasmi_linker, new_with_cost_inputs", "soroban-env-host/src/vm/func_info.rs", "soroban-env-host/src/vm/dispatch.rs", "soroban-env-common/env.json", "soroban-env-host/src/host/lifecycle.rs: upload_contract_wasm"]}
{"id": "C62", "title": "The module cache does not change what runs", "statement": "Whatever the threads sharing a module cache do, in any interleaving (adding code, with other threads acting between the check and the insertion, removing code, clearing the cache), a contract call with the cache starts the same module for the same contract as without a cache, or fails with the same error. If the code is found in the cache, the call is charged what it is charged without a cache except for parsing the module and listing its imports. Simulating a call of live code without a cache has the same result and the same charges as a call that finds the code in the cache.", "quantifier": "all interleavings of any number of threads, all codes, all contents of storage that are stored under their hash, all contracts", "why_tests_cant": "The interleavings of threads on a shared cache and the modules in it are unbounded; tests exercise a cache filled by one thread.", "anchors": ["soroban-env-host/src/vm/module_cache.rs: ModuleCache::new, parse_and_cache_module, parse_and_cache_module_simple, remove_module, clear, get_module", "soroban-env-host/src/host/frame.rs: instantiate_vm", "soroban-env-host/src/vm/parsed_module.rs: ParsedModule::new, charge_for_parsing, charge_for_instantiation", "soroban-env-host/src/host/data_helper.rs: retrieve_wasm_from_storage"]}
{"id": "C63", "title": "Cost inputs of code count what it contains, and rent follows the memory it takes", "statement": "The cost inputs determined for uploaded code are exactly the numbers of instructions, functions, globals, table entries, types, data and element segments, imports, exports and data bytes of all its sections, in 32-bit counters that stop at their maximum. They can be determined exactly when the code is a core module, all sections decode and are allowed, all initializers are simple constants, there is no more data than initial memory and there are no more elements than table entries. The size of a code entry that rent is computed from is the size of its XDR plus the memory that parsing the module takes from the budget.", "quantifier": "all codes with any number of sections and items, all budgets and cost models, all cost inputs", "why_tests_cant": "Sections and items are unbounded in number and counters saturate; tests measure a few generated modules.", "anchors": ["soroban-env-host/src/vm/parsed_module.rs: extract_refined_contract_cost_inputs, check_const_expr_simple, wasm_module_memory_cost", "soroban-env-host/src/e2e_invoke.rs: entry_size_for_rent", "soroban-env-host/src/budget.rs: get_memory_cost"]}
{"id": "C64", "title": "A contract's instructions are paid for, and its failures are reported as they are", "statement": "When a call of a contract function is over, whether it succeeded or failed, the cpu budget has been charged for every instruction it executed, including the instructions between calls of host functions; a contract never executes more instructions than the cpu budget has left at the call. If the budget is used up, the call fails with a budget error. If not, the call returns what the execution ended with: a valid value under one of the contract's own handles is returned, any other word is an error, a trap is reported as the documented error of the virtual machine (as an exceeded budget for stack, fuel and memory), and an error of a host function ends the contract and is reported unchanged: a contract cannot catch or alter the error of a host function it called directly. A missing function, a wrong number of arguments or a wrong signature executes nothing.", "quantifier": "all contract codes (executions are arbitrary trees of instruction costs, memory requests, host calls, traps and results), all host functions that only do metered work, all budgets and cost models, all arguments", "why_tests_cant": "Contract executions are unbounded in length and in the pattern of host calls, refuelling and failures; tests run a few contracts.", "anchors": ["soroban-env-host/src/vm.rs: metered_func_call, invoke_function_raw", "soroban-env-host/src/vm/dispatch.rs: generate_dispatch_functions", "soroban-env-host/src/vm/fuel_refillable.rs: add_fuel_to_vm, return_fuel_to_host", "soroban-env-common/src/error.rs: From<TrapCode>, From<FuncError>, From<wasmi::Error>", "soroban-env-host/src/budget/wasmi_helper.rs: memory_growing"]}
{"id": "C65", "title": "Encodings of curve points are unique and only valid ones are accepted", "statement": "Each point of BLS12-381 G1 and G2 and of BN254 G1 and G2 has exactly one accepted encoding, of 96, 192, 64 and 128 bytes: coordinates less than the modulus, big-endian, the imaginary part first, with unset flag bits; infinity is the infinity flag and zeros (BLS12-381) or all zeros (BN254). The checks that a point is on the curve or in the subgroup answer the mathematical question for every well-formed encoding; every other byte string is refused with Crypto/InvalidInput. Field elements to be mapped are refused unless they have the exact length and are less than the modulus; a domain separation tag must have 1 to 255 bytes.", "quantifier": "all byte strings, all points of the four curves, all pairs of coordinates", "why_tests_cant": "There are 2^768 encodings of G1 alone; a second accepted encoding of a point (malleability) or an accepted point off the curve is invisible to tests on known vectors.", "anchors": ["soroban-env-host/src/crypto/bls12_381.rs: validate_point_encoding, affine_deserialize, g1_affine_serialize_uncompressed, field_element_deserialize, hash_to_curve", "soroban-env-host/src/crypto/bn254.rs: bn254_validate_flags_and_check_infinity, bn254_g1_affine_deserialize, bn254_g2_affine_deserialize", "soroban-env-host/src/host.rs: bls12_381_check_g1_is_in_subgroup, bls12_381_g1_is_on_curve, bn254_g1_is_on_curve"]}
{"id": "C66", "title": "Operations on curve points are those of the elliptic curve group", "statement": "g1_add, g2_add and bn254_g1_add give the encoding of the sum of any two points of the curve. g1_mul, g2_mul and bn254_g1_mul give the encoding of the n-th multiple for every 256-bit number n, reduced or not, of every point of the subgroup, and refuse points outside it. The multi-scalar multiplications give the sum of the multiples, and succeed just when the vectors have equal, nonzero length and contain points of the subgroup and numbers. For BN254 G1 the missing subgroup check loses nothing: every point of the curve has order r. Results are accepted as arguments, so that commutativity, associativity, (b*m)*n = b*(m*n) and b*m + b*n = b*(m+n) hold for byte strings.", "quantifier": "all byte strings and vectors of values, all points, all numbers", "why_tests_cant": "The group laws hold for all points including infinity, opposite and equal points and points outside the subgroup; tests check a few vectors.", "anchors": ["soroban-env-host/src/host.rs: bls12_381_g1_add, bls12_381_g1_mul, bls12_381_g1_msm, bls12_381_g2_add, bls12_381_g2_mul, bls12_381_g2_msm, bn254_g1_add, bn254_g1_mul, bn254_g1_msm", "soroban-env-host/src/crypto/bls12_381.rs: msm_internal, fr_vec_from_vecobj", "soroban-env-host/src/crypto/metered_scalar.rs: from_u256val"]}
{"id": "C67", "title": "Pairing checks decide the pairing equation", "statement": "multi_pairing_check succeeds just when both vectors have the same nonzero length and contain encodings of points of the subgroups, and then tells whether the product of the pairings is one. For a bilinear map that is not degenerate at g it therefore verifies signatures: checking (R, g) and (-H, k*g) answers whether R = k*H, for BLS12-381 and BN254.", "quantifier": "all vectors of values, all pairings the library may compute, all points and numbers", "why_tests_cant": "Soundness of a signature check is a statement about all forgeries R and about all malformed inputs.", "anchors": ["soroban-env-host/src/host.rs: bls12_381_multi_pairing_check, bn254_multi_pairing_check", "soroban-env-host/src/crypto/bls12_381.rs: pairing_internal, check_pairing_output, affine_vec_from_vecobj", "soroban-env-host/src/crypto/bn254.rs: bn254_pairing_internal"]}
{"id": "C68", "title": "Scalar arithmetic is arithmetic modulo the group order with canonical results", "statement": "The functions for sums, differences, products and powers of scalars take any 256-bit numbers and give the residue less than r of the sum, difference, product or power. Inversion fails exactly for multiples of r, and otherwise gives the residue that multiplies to one.", "quantifier": "all 256-bit numbers and exponents, both orders r", "why_tests_cant": "Inputs that are not reduced, and results that are not, are a sliver of the numbers that random tests miss.", "anchors": ["soroban-env-host/src/host/num.rs: impl_bls12_381_fr_arith_host_fns", "soroban-env-host/src/host.rs: bls12_381_fr_pow, bls12_381_fr_inv, bn254_fr_pow, bn254_fr_inv", "soroban-env-host/src/crypto/bls12_381.rs: fr_add_internal, fr_sub_internal, fr_mul_internal, fr_inv_internal", "soroban-env-host/src/crypto/metered_scalar.rs: from_u256val"]}
{"id": "C69", "title": "Poseidon and Poseidon2 compute the published permutations and are permutations", "statement": "poseidon_permutation and poseidon2_permutation, for BLS12_381 and BN254, succeed exactly if all vectors consist of 256-bit numbers, the degree is 5, the number of full rounds is even and the sizes fit together, and then give, in canonical form, the result of the published rounds on the residues: half of the full rounds, the partial rounds, the other half. For an invertible matrix every vector of canonical scalars is the result of exactly one vector of canonical scalars. The external layer of Poseidon2 is invertible for every supported state size (2, 3, 4, 8, ..., 24). For sizes two and three the diagonal argument is checked for its length but otherwise ignored.", "quantifier": "all vectors of values, state sizes, numbers of rounds, matrices and round constants, both fields", "why_tests_cant": "The functions take their matrices and constants as arguments; known answers cover a handful of instances, and injectivity is a statement about all pairs of inputs.", "anchors": ["soroban-env-host/src/host.rs: poseidon_permutation, poseidon2_permutation", "soroban-env-host/src/crypto/mod.rs: poseidon_permutation_impl, poseidon2_permutation_impl", "soroban-env-host/src/crypto/poseidon/poseidon.rs: permutation, matmul", "soroban-env-host/src/crypto/poseidon/poseidon2.rs: permutation, matmul_m4, matmul_external, matmul_internal", "soroban-env-host/src/crypto/poseidon/utils.rs: sbox, sbox_p, add_rc", "soroban-env-host/src/host/conversion.rs: metered_scalar_vec_from_vecobj, metered_scalar_vec_of_vec_from_vecobj"]}
{"id": "C70", "title": "Signature functions accept exactly well-formed signatures, and ECDSA signatures are not malleable", "statement": "verify_sig_ed25519 succeeds exactly for 32-byte keys that are points, 64-byte signatures and payloads that strict verification accepts. recover_key_ecdsa_secp256k1 and verify_sig_ecdsa_secp256r1 succeed only for the one 64-byte encoding of numbers r and s in range with s less than n - s, 32-byte digests, recovery identifiers of at most 3 and (secp256r1) keys in uncompressed form, and then exactly if the library finds a key or accepts. If a signature is accepted in some call, the one with n - s for s is refused in all calls. With a library that accepts only solutions of the ECDSA equation, two accepted signatures for one key and digest with the same nonce coordinate are the same bytes.", "quantifier": "all byte strings, all recovery identifiers, all behaviours of the libraries", "why_tests_cant": "Refusal of all malformed or malleated signatures is a statement about all byte strings; tests try a few.", "anchors": ["soroban-env-host/src/host.rs: verify_sig_ed25519, recover_key_ecdsa_secp256k1, verify_sig_ecdsa_secp256r1", "soroban-env-host/src/crypto/mod.rs: ed25519_pub_key_from_bytes, ecdsa_signature_from_bytes, secp256k1_recovery_id_from_u32val, secp256r1_decode_sec1_uncompressed_pubkey", "soroban-env-host/src/host/conversion.rs: fixed_length_bytes_from_slice"]}
{"id": "C71", "title": "The text form of addresses is exact, reversible and catches typing mistakes", "statement": "strkey_to_address accepts a string or bytes object exactly if it holds the text form (SEP-0023 strkey) of an account or a contract, and then returns that address; strkey_to_muxed_address accepts in addition the texts of muxed accounts; everything else is refused with Value/InvalidInput. address_to_strkey and muxed_address_to_strkey return that text. Every address has exactly one text and no text belongs to two addresses, so writing and parsing are inverse. A muxed account's text yields the account and the id it was made from. A text with one character or two neighbouring characters changed in any way is refused.", "quantifier": "all object tables below the handle limit, all addresses (any key, hash and id), all texts of any length and content, and all ways to change one or two neighbouring characters of a valid text", "why_tests_cant": "There are 2^256 addresses of each kind and infinitely many texts; that no second text is accepted for an address, and that no typing mistake turns one address into another, are statements about all of them.", "anchors": ["soroban-env-host/src/host.rs: address_to_strkey, muxed_address_to_strkey, strkey_to_address, strkey_to_muxed_address, get_address_from_muxed_address, get_id_from_muxed_address", "soroban-env-host/src/host/conversion.rs: non_muxed_sc_address_to_strkey, muxed_sc_address_to_strkey, strkey_to_scaddress", "soroban-env-host/src/host_object.rs: HostObjectType for ScAddress and MuxedScAddress"]}
{"id": "C72", "title": "A Stellar Asset Contract is initialized once and describes exactly its asset", "statement": "Initializing a Stellar Asset Contract succeeds exactly when it has not been initialized, the given bytes are the XDR form of a well-formed asset (codes of letters and digits padded with zeros, one to four characters in the short form and five to twelve in the long form) and the contract's address is the one derived from that asset. Afterwards the contract reports that asset, decimals 7, the symbol TEXT and the name TEXT:G... (or native twice), the administrator is the issuer, and every further initialization fails with AlreadyInitialized. Two contracts with the same name hold the same asset. Codes are rendered as SEP-11 says: visible characters as themselves, other bytes, colons and backslashes as \\x and two hexadecimal digits. The rendering never gives two codes with trailing zeros the same text, even across the two sizes.", "quantifier": "every byte string, instance state, contract address, derivation of addresses from assets, and pair of contracts or codes", "why_tests_cant": "The statement ranges over all byte strings and all pairs of assets; the unit test checks some thirty renderings.", "anchors": ["soroban-env-host/src/builtin_contracts/stellar_asset_contract/contract.rs: init_asset, name, symbol, decimals", "soroban-env-host/src/builtin_contracts/stellar_asset_contract/asset_info.rs: validate_asset, read_asset", "soroban-env-host/src/builtin_contracts/stellar_asset_contract/metadata.rs: set_metadata, render_sep0011_asset_code, render_sep0011_asset"]}
{"id": "C73", "title": "Serialized values are unique and come back as equal values", "statement": "Serializing a value gives the XDR form of the ledger value it stands for. Reading these bytes later gives a value that compares equal, and reading succeeds for every value the host accepts from outside. Two values have the same serialized form exactly when they compare equal, and no serialized form is the beginning of another. Reading accepts exactly the serialized forms of acceptable values: nothing may follow, padding must be zero, every number, length and kind must be legal. Serializing what was read gives back the same bytes.", "quantifier": "every table of host objects, value, byte string, depth left and objects added in between", "why_tests_cant": "Values are nested arbitrarily and byte strings are arbitrary; uniqueness is a statement about all pairs. Contracts hash and compare serialized values, so one second form would break them.", "anchors": ["soroban-env-host/src/host.rs: serialize_to_bytes, deserialize_from_bytes", "soroban-env-host/src/host/metered_xdr.rs: metered_write_xdr, metered_from_xdr", "soroban-env-host/src/host/conversion.rs: from_host_val, to_host_val", "soroban-env-common/src/val.rs: can_represent_scval_recursive"]}
{"id": "C74", "title": "A contract's id depends on the network, and on the deployer and the salt or the asset, and on nothing else", "statement": "get_contract_id succeeds exactly for an address and a salt of 32 bytes and returns the contract address that is the SHA-256 hash of the network id, the address and the salt; get_asset_contract_id succeeds exactly for the XDR form of an asset and returns the hash of the network id and the asset. Every contract creation (from a Wasm, from a reference to an executable, with or without constructor arguments, from an asset) uses and returns the same id. The hashed messages of contracts that differ in network, kind, deployer, salt or asset differ, so equal ids mean equal origins or a collision of SHA-256. An id made from a deployer never goes to an asset contract and an asset's id to no other contract. It is made of the executable given (the Wasm hash, or the owner and tag of a reference), and its constructor gets the arguments given.", "quantifier": "every table of host objects, network id, deployer, salt, asset, executable and constructor arguments, and every behaviour of authorization and constructor", "why_tests_cant": "Uniqueness is a statement about all pairs of origins and networks; the encoding has variable-length parts, so two different origins could in principle give the same bytes.", "anchors": ["soroban-env-host/src/host/lifecycle.rs: get_contract_id_hash, get_asset_contract_id_hash, create_contract_from_obj_inputs, create_contract_internal", "soroban-env-host/src/host/data_helper.rs: get_full_contract_id_preimage", "soroban-env-host/src/host.rs: get_contract_id, get_asset_contract_id, create_contract, create_asset_contract"]}
{"id": "C75", "title": "What an account signs determines the whole authorization", "statement": "The payload of an authorization entry is the SHA-256 hash of a message made of the network id, the nonce, the last ledger of the signature, the tree of invocations exactly as listed in the entry and, for the credentials that say so, the address. It stays the same while invocations are used up and objects are added. Two entries with the same payload agree on all of these or their messages are a collision of SHA-256; the only identification is that the older form of contract creation stands for the newer one without constructor arguments. A message to sign is never the message of a contract id.", "quantifier": "every entry (tree of any depth and width, any arguments), every pair of entries, networks, nonces and expirations, every set of used invocations and objects added later", "why_tests_cant": "A second meaning for a signed payload would let somebody replay a signature; that there is none is a statement about all pairs of nested trees with variable-length parts.", "anchors": ["soroban-env-host/src/auth.rs: get_signature_payload, AuthorizedInvocation::from_xdr, AuthorizedInvocation::to_xdr, AuthorizedFunction::from_xdr, AuthorizedFunction::to_xdr", "soroban-env-host/src/host/metered_xdr.rs: metered_hash_xdr", "soroban-env-host/src/host/conversion.rs: scvals_to_val_vec, vals_to_scval_vec, scsymbol_from_symbol"]}
{"id": "C76", "title": "Ledger keys are told apart and totally ordered", "statement": "Comparing two ledger keys of supported kinds (account, trustline, contract data, contract code) gives their order: by kind, then field by field, values by the order of values. It is a total order in which only equal keys are equal, so the ordered map in which storage and footprint are kept is a map from keys: after any history of writes and deletes, reading a key gives what was last said about that very key, and two keys that differ in contract, value or durability only are different entries. The comparison fails only for values nested deeper than the depth left. Keys of other kinds are always refused.", "quantifier": "every two or three ledger keys of all ten kinds with values of any size and nesting, every depth, every history of writes and deletes of such keys", "why_tests_cant": "A pair of different keys that compare as equal, or an order that is not transitive, would make one entry overwrite another or be lost by the binary search; that there is none is a statement about all triples of keys with nested values.", "anchors": ["soroban-env-host/src/host/comparison.rs: Compare<LedgerKey>, Compare<LedgerKeyContractData>, impl_compare_fixed_size_ord_type", "soroban-env-common/src/compare.rs: impl_compare_for_tuple", "soroban-env-host/src/storage.rs: check_supported_ledger_key_type"]}
{"id": "C77", "title": "An authorization matches a call exactly when both say the same", "statement": "The comparison by which the host matches an authorized function against the function being called answers that they are equal exactly when both are calls of the same contract, function and arguments, as ledger values, or both are creations of a contract with the same id preimage, executable and constructor arguments, whatever host objects they are made of (a small symbol equals a symbol object of the same text). If it does not answer, a value nests deeper than the depth left, which does not happen to values that convert within that depth.", "quantifier": "every object table of a host, every two authorized functions with any arguments, every depth", "why_tests_cant": "A call that matches an authorization for something else could be used without consent; the values are nested and have several representations, so no finite set of pairs settles it.", "anchors": ["soroban-env-host/src/auth.rs: Compare<ContractFunction>, Compare<AuthorizedFunction>", "soroban-env-host/src/host/comparison.rs: Compare<CreateContractArgsV2>"]}
{"id": "C78", "title": "Invocation metering attributes resources to the call that used them", "statement": "With invocation metering enabled, whatever is executed, measuring never fails on its own account and the last outermost invocation is shown as a tree with one node per contract call made in it, in the order and nesting of the calls; the resources of a node are exactly the difference between those at its end and at its beginning. Entering the same invocation twice at the same level, or uploading and creating contracts inside a call, does not make a node. Instructions and memory of the calls made by a call are never negative and together never exceed its own. With limits set, the invocation is refused unless everything it used is within them, and every key and entry of its footprint that the budget allows to encode is within the limit of its type. While metering is disabled it changes nothing.", "quantifier": "every tree of nested calls, uploads and creations of any depth and length, every work done between them, every sequence of outermost invocations, every limit", "why_tests_cant": "The meter keeps a mutable tree addressed by the current depth; a node attached or closed at the wrong level shows up only for particular nestings, of which there are infinitely many.", "anchors": ["soroban-env-host/src/host/invocation_metering.rs: InvocationMeter, push_invocation, pop_invocation, InvocationResources::subtract, verify_limits"]}
{"id": "C79", "title": "What an invocation's resources are", "statement": "The resources shown count each entry of the footprint once: as read from disk if it is not a contract's entry or is an archived contract entry, and otherwise as read from memory; each entry that may be written counts as written with its bytes at the end. The rent of an entry is its new bytes for the ledgers already paid for plus all its bytes for the ledgers added, in separate sums for persistent and temporary entries. Measuring fails exactly if some entry ends with fewer ledgers to live than it had at the beginning.", "quantifier": "every footprint with entries of every kind, size and lifetime before and after, every ledger, every list of events", "why_tests_cant": "The sums range over all footprints and over all combinations of kind, archived or live, created, changed or deleted.", "anchors": ["soroban-env-host/src/host/invocation_metering.rs: snapshot_current_resources, try_snapshot_storage_and_event_resources"]}
{"id": "C80", "title": "Fee estimates are those of the rates", "statement": "The fee estimated for an invocation is, part by part, the exact product of resource and rate, rounded up to a whole unit, and the total is the sum of the parts, up to the greatest number. It agrees with what a transaction with these resources is charged, provided the entries written are also declared as read. The estimates of the calls made by a call exceed the call's own by less than one unit for each. Rent is an exception: for a new entry one ledger less is estimated than charged, and for code three times too much.", "quantifier": "every amount of every resource, every rate, every tree of calls", "why_tests_cant": "Rounding and saturation errors show only for particular amounts.", "anchors": ["soroban-env-host/src/host/invocation_metering.rs: InvocationResources::estimate_fees, compute_fee_per_increment", "soroban-env-host/src/fees.rs: compute_transaction_resource_fee, compute_rent_fee"]}
{"id": "C81", "title": "Contracts do not lose their code", "statement": "Whatever code runs and however it ends, an executable a contract did not have before refers to code, or to a tagged executable, that is in the ledger, and a tagged executable that was written is the hash of code that is in the ledger. So if every contract and every tag has code in the ledger, that is so after any transaction, and loading a contract's code fails only where the footprint lacks what has to be read.", "quantifier": "every ledger and footprint, every state reachable within a transaction, every program of every contract, with every result", "why_tests_cant": "An unchecked path to one executable among creation, update, references and tags, or one that deletes a tag, makes a contract unusable only in particular sequences.", "anchors": ["soroban-env-host/src/host/data_helper.rs: verify_wasm_exists, verify_executable_ref_entry_exists, resolve_external_ref_wasm_hash, validate_put_contract_data, retrieve_wasm_from_storage", "soroban-env-host/src/host.rs: update_current_contract_wasm, update_current_contract_executable_ref, put_contract_data", "soroban-env-host/src/host/lifecycle.rs: create_contract_with_id, update_current_contract_executable"]}
{"id": "C82", "title": "Only a contract and the owner of its tag decide which code it runs", "statement": "If a contract runs other code after a transaction than before, a function of that contract was entered in the transaction, or the contract refers to another contract's tagged executable and a function of that owner was entered. The tags of accounts never change. get_address_executable reports for every address what the ledger has: account, asset contract, the hash of the code that runs with references resolved, or nothing; it changes nothing, and in a ledger where all contracts have code it fails only because of the footprint.", "quantifier": "every ledger and footprint, every transaction, every address and contract", "why_tests_cant": "It is a statement about all programs of all other contracts in the transaction, including calls that fail and are caught.", "anchors": ["soroban-env-host/src/host.rs: get_address_executable, update_current_contract_wasm", "soroban-env-host/src/builtin_contracts/common_types.rs: AddressExecutable", "soroban-env-host/src/host/frame.rs: call_contract_fn"]}
{"id": "C83", "title": "Account contracts are shown every function their owner signed for", "statement": "When authorization is checked by an account contract's __check_auth, the contexts it is given are the functions of the signed invocation tree: all of them, each once and in order, a function before those it calls, as maps that name the called contract, the function and the arguments, or the executable, the salt and the constructor arguments of a creation. The payload it is given is the hash of a message with that same tree. Two trees with the same contexts have the same functions one by one, up to the deployer of a creation. A tree with a function that has no such form is refused.", "quantifier": "every invocation tree of every size and depth, every state of use of its nodes, every object table", "why_tests_cant": "An account contract that limits what it approves is bypassed by a single function that is signed for and not shown, at any place of any tree.", "anchors": ["soroban-env-host/src/auth.rs: authenticate, AuthorizedInvocation", "soroban-env-host/src/builtin_contracts/account_contract.rs: invocation_tree_to_auth_contexts, AuthorizationContext, ContractAuthorizationContext, CreateContractHostFnContext, CreateContractWithConstructorHostFnContext", "soroban-env-host/src/builtin_contracts/common_types.rs: ContractExecutable", "soroban-builtin-sdk-macros/src/derive_type.rs: derive_type_struct, derive_type_enum"]}
{"id": "C84", "title": "A contract authorizes in its own name exactly what it lists", "statement": "authorize_as_curr_contract succeeds exactly for a vector in which every element lists an invocation (a call with its sub-invocations, or a creation), and it then authorizes for the current contract exactly these trees, in order, with no node used. Creations are by the current contract. A vector lists one sequence of trees at most.", "quantifier": "every value passed, every object table, every contract", "why_tests_cant": "A value that is read in another way than its author meant gives others the contract's authority; the values are trees of any depth.", "anchors": ["soroban-env-host/src/auth.rs: add_invoker_contract_auth_with_curr_contract_as_invoker", "soroban-env-host/src/builtin_contracts/invoker_contract_auth.rs: invoker_contract_auth_to_authorized_invocation, InvokerContractAuthEntry, SubContractInvocation", "soroban-env-host/src/host.rs: authorize_as_curr_contract"]}
{"id": "C85", "title": "The asset contract does what the name and arguments of a call say", "statement": "A call of a Stellar Asset Contract is understood exactly when its name is that of a function of the token interface and its arguments have that function's number and types, and it then is that function with exactly these arguments in this order. When the call succeeds, the ledger is that after the operation and the value returned stands for its result; name, symbol and decimals change nothing and init_asset always fails. Nothing else can make it fail: if the operation succeeds on the ledger, so does the call (given room for 13 objects). Only transfer takes a receiver with a muxed identifier.", "quantifier": "every function name, every list of argument values, every object table, every ledger and every operation", "why_tests_cant": "Two arguments swapped or an integer read in another width moves other people's money, and the values are all 128-bit amounts in two encodings and all addresses.", "anchors": ["soroban-env-host/src/builtin_contracts/stellar_asset_contract/contract.rs: StellarAssetContract", "soroban-builtin-sdk-macros/src/derive_fn.rs: derive_contract_function_set", "soroban-env-host/src/builtin_contracts/base_types.rs: Address, MuxedAddress", "soroban-env-common/src/convert.rs: i128"]}
{"id": "C86", "title": "Token events tell what happened", "statement": "A successful call of a Stellar Asset Contract publishes exactly the events of its operation, each with the topics of the interface (what happened, to whom, and the name of the asset) and with the amount, expiration, flag or administrator as data. A transfer or mint to an address given with a muxed identifier tells the identifier next to the amount. From the topics and the data of an event, the asset's name and everything about the event can be recovered, including that identifier.", "quantifier": "every successful call, every asset name, every amount, address and identifier", "why_tests_cant": "Indexers and exchanges rebuild balances from events alone; two different happenings that look alike, for any amounts and addresses, cannot be excluded by samples.", "anchors": ["soroban-env-host/src/builtin_contracts/stellar_asset_contract/event.rs: approve, transfer_maybe_with_issuer, mint, burn, clawback, set_authorized, set_admin, get_amount_data_maybe_muxed", "soroban-env-host/src/macros.rs: host_vec"]}
{"id": "C87", "title": "Simulations use the network's settings", "statement": "The configuration a simulation loads from a ledger snapshot is that of the network: it loads exactly when the ten settings are on the ledger, each of its kind under its own key, and the window of state sizes has an average that fits. Then the fees of every transaction, the rent of every entry (with the rate for the average size of the state) and the lifetimes of entries are those of the settings, and the budget accepts work exactly when it is within the instruction and memory limits at the costs of the parameters of its type. Types without parameters cost nothing; negative or superfluous parameters are refused.", "quantifier": "every snapshot, every network configuration, every transaction's resources, every kind and amount of work", "why_tests_cant": "Fields of the same type are easily swapped, and a test with one configuration in which both are equal, or in which an average does not overflow, does not show it; simulated fees must agree with those of the network for all settings it may vote for.", "anchors": ["soroban-simulation/src/network_config.rs: NetworkConfig::load_from_snapshot, load_bucket_list_size_from_snapshot, fill_config_fields_in_ledger_info, create_budget", "soroban-env-host/src/budget.rs: Budget::try_from_configs_with_shadow_limits, BudgetTracker::default", "soroban-env-host/src/budget/dimension.rs: BudgetDimension::try_from_config"]}
{"id": "C88", "title": "What the asset contract stores is found again", "statement": "The Stellar asset contract stores balances and allowances under keys of its own: the key made for a balance or an allowance becomes exactly the documented ledger key, no two holders, pairs of addresses or kinds of data share a key, and the keys of the instance's map are distinct from each other and from these. The value made for a balance or an allowance is the documented one; a stored value is read as a balance (allowance) exactly when it is that one in the documented form; and whatever one execution stores, any later execution, with another table of objects, reads back unchanged. With room for the objects none of these steps fails.", "quantifier": "every address and pair of addresses, every balance and allowance, every object table before storing and before loading, every nesting limit from three up", "why_tests_cant": "Tests store a few small amounts under a few keys in one host; a collision of keys, a field stored under another's name or an amount that only survives while small shows for particular addresses and amounts.", "anchors": ["soroban-env-host/src/builtin_contracts/stellar_asset_contract/storage_types.rs: DataKey, AllowanceDataKey, BalanceValue, AllowanceValue, InstanceDataKey", "soroban-env-host/src/builtin_contracts/stellar_asset_contract/balance.rs: read_balance, write_contract_balance", "soroban-env-host/src/builtin_contracts/stellar_asset_contract/allowance.rs: read_allowance, write_allowance", "soroban-builtin-sdk-macros/src/derive_type.rs: derive_type_struct, derive_type_enum", "soroban-env-host/src/host/conversion.rs: from_host_val_for_storage"]}
{"id": "C89", "title": "The asset contract refuses a call exactly for its documented reasons", "statement": "A call of the Stellar asset contract that is authorized, whose transaction declares the entries it touches, and which meets a deployed contract in a running network, succeeds exactly when none of a short list of reasons holds in the ledger it starts from: a negative amount (error 8); burning, clawing back, trusting or authorizing where the asset or the issuer does not allow it (2); an account (6) or trustline (13) that does not exist; an amount that does not fit (12); a payer without the funds above its reserve and offers or a payee without the room, or a holding that cannot be clawed back (10); a holder that is not authorized (11); an allowance that is too low, expired or longer than the network allows (9); too little reserve for a new account or trustline (14), too many subentries (15). Otherwise it fails with the contract error of a reason that does hold. In particular no call is stuck: two authorized contracts can always move what they have.", "quantifier": "every operation, asset, holder and amount, every ledger within the bounds of its types, every storage mode, footprint and way of authorizing", "why_tests_cant": "Tests try one refusal at a time on small ledgers; that nothing else can stop a call (an overflow in a reserve, a lifetime that cannot be extended, an unexpected error of the host), and that each error means what it says, concerns all amounts, flags and ledger states.", "anchors": ["soroban-env-host/src/builtin_contracts/stellar_asset_contract/contract.rs: StellarAssetContract", "soroban-env-host/src/builtin_contracts/stellar_asset_contract/balance.rs", "soroban-env-host/src/builtin_contracts/stellar_asset_contract/allowance.rs", "soroban-env-host/src/builtin_contracts/contract_error.rs: ContractError"]}
{"id": "C90", "title": "Extending a contract's lifetime covers exactly what it is made of", "statement": "Extending the lifetime of a contract (its own or another one, both its instance and its code or one of them) raises the lifetimes of exactly the entries in scope: the instance; the Wasm code, or for a contract that refers to an executable tag of another address, both the tag and the code it stands for; nothing more for the asset contract. Each is raised by the rule for the time it has left, never beyond the network maximum, never lowered, and no value and no other entry changes. A proper request succeeds exactly if these entries exist and are in the footprint. After a request for n ledgers for all of a contract, everything the contract is made of lives for at least n more ledgers, or as long as the network allows.", "quantifier": "every reachable state of every transaction, every contract, scope, kind of request and its arguments, enforcing and recording mode", "why_tests_cant": "A missed entry shows only when it expires, long after; the combinations of kind of executable, scope, threshold and remaining lifetime of each entry are unbounded.", "anchors": ["soroban-env-host/src/host.rs: extend_current_contract_instance_and_code_ttl, extend_contract_instance_ttl, extend_contract_instance_and_code_ttl, extend_contract_code_ttl, extend_contract_instance_and_code_ttl_v2", "soroban-env-host/src/host/data_helper.rs: extend_contract_code_ttl_from_contract_id, extend_contract_code_ttl_v2", "soroban-env-host/src/storage.rs: extend_ttl, extend_ttl_v2"]}
{"id": "C91", "title": "Metered copies are paid for", "statement": "When the host makes a metered copy of a value, ledger key, ledger entry, invocation tree, host vector or map, the copy is made exactly if the depth limit admits the nesting of the values in it and the budget admits its charges; the charges are one copy of the top-level type's declared size and, for every block of memory the copy owns at any depth, one allocation and one copy by the size of the block, and nothing else is charged or changed. So if the network's memory model charges at least one unit per byte allocated, the heap taken by all blocks of a copy is counted against the memory limit and never goes beyond it. Values with absent vectors or maps, and keys and entries of kinds the host does not use, are not copied. Two exceptions are stated: the tag in a first-format creation that refers to an executable tag, and the signature of an authorization entry.", "quantifier": "every value, key, entry and invocation tree of any size and nesting, every state of the budget and its cost models", "why_tests_cant": "A part of a structure that is copied without charge is a way to use unbounded memory; the shapes of values and trees are unbounded, and a test looks at the charges of a few.", "anchors": ["soroban-env-host/src/host/metered_clone.rs: charge_shallow_copy, charge_heap_alloc, charge_bulk_init_cpy, MeteredClone, MeteredIterator::metered_collect", "soroban-env-host/src/host/declared_size.rs: DeclaredSizeForMetering", "soroban-env-host/src/host/metered_vector.rs: charge_shallow_copy/MeteredClone for MeteredVector", "soroban-env-host/src/host/metered_map.rs: MeteredClone for MeteredOrdMap"]}
{"id": "C92", "title": "Exactly when require_auth succeeds", "statement": "At any point of a transaction, in any contract, require_auth of an address succeeds exactly if the address is the contract that called the current one; or it is a contract below on the stack, other than the current one, that has authorized this call with these arguments in advance and of whose list the node is unused and next; or among the signed entries of the address, in the order of the transaction, the first one that has a node next for this call (its root, if nothing of it was used and no entry of the address is in use by an enclosing frame; or the first unused child for this call of the node used by the innermost running frame, if the current frame has used none) is authentic: found so before, or belonging to the source account, or accepted by the account's or contract's signature check with a nonce that is unused, in time and declared for writing. If nobody has authorized the call it fails and changes nothing; if an entry has, that node is recorded as used by the current frame. The same holds of the authorization of a deployer for the creation of a contract.", "quantifier": "every environment, transaction, set of signed entries and trees of any shape, every state reached in it, every address, function and argument list, every code of __check_auth", "why_tests_cant": "A correctly signed tree has to be accepted for all shapes of trees and call stacks, after any history of failed and successful calls; a test shows acceptance for some trees. The order in which entries and children are taken matters only in combinations of several.", "anchors": ["soroban-env-host/src/auth.rs: require_auth, require_auth_internal, maybe_check_invoker_contract_auth, require_auth_enforcing, maybe_extend_invocation_match, is_active, current_frame_is_already_matched, maybe_authorize_invocation, authenticate, verify_and_consume_nonce, consume_nonce"]}
{"id": "C93", "title": "Every change of a contract's executable is announced", "statement": "An update of the executable by a contract that succeeds adds exactly one system event, with the ID of the contract, the executable it had and the new one. At any point of a transaction, and after it, the update events of a contract that have not been rolled back lead, each beginning with the executable the one before ended with, from the executable the contract had at the beginning to the one it has now. So an observer that sees only the events of a transaction knows which contracts run something else afterwards: without such an event the executable is the same, and otherwise the last event has the one it has now. Updates of failed calls leave nothing in the ledger and nothing in the events that count. Contracts cannot emit such events themselves.", "quantifier": "every environment, transaction, program of every contract with calls, failing calls, creations, uploads and updates in any order, every contract", "why_tests_cant": "The event and the change of the ledger are two separate steps, and both are undone by a failing frame; that they always agree is a statement about all histories of nested calls, failures and updates.", "anchors": ["soroban-env-host/src/events/system_events.rs: emit_update_contract_event, system_event", "soroban-env-host/src/host/lifecycle.rs: update_current_contract_executable", "soroban-env-host/src/host/data_helper.rs: store_contract_instance", "soroban-env-host/src/events/internal.rs: rollback"]}
{"id": "C94", "title": "Exactly when a call of a contract succeeds", "statement": "A call of a function (with `call`, and at the top of a transaction) succeeds with a value exactly if: the name is not one of those reserved for the host; the contract is not running already; there are not too many frames; the instance of the contract exists and the transaction may read it; its code exists and the transaction may read it, and the tag of the other contract if the executable refers to one; the code of the function, run in the frame of the contract with the instance storage of the ledger, returns that value; the value is not an error; and, if the code has changed the instance storage, the transaction may write the instance. Otherwise it fails, and how is determined: a failure of the code is passed on as it is, an error value of the contract becomes that error, one of the host another one, and a call that cannot be entered leaves everything as it was. `try_call` returns a value that is not an error in exactly the same cases.", "quantifier": "every environment, transaction with an enforced footprint, state it can reach, contract, function name, program of the function", "why_tests_cant": "Exactness is a statement about all states: that nothing else in the host, for example the bookkeeping of frames, authorizations or rollbacks, can make a call fail or succeed; tests show single failures.", "anchors": ["soroban-env-host/src/host/frame.rs: call_n_internal, call_contract_fn, with_frame_and_initial_mem_charge, persist_instance_storage", "soroban-env-host/src/host.rs: call, try_call", "soroban-env-host/src/host/data_helper.rs: retrieve_contract_instance_from_storage, retrieve_wasm_from_storage, resolve_external_ref_wasm_hash"]}
{"id": "C95", "title": "Exactly when code is uploaded, executables are updated and contracts are created", "statement": "An upload succeeds exactly if the same code is in the ledger and the transaction may read it, or it is not and the transaction may write it. A contract changes its own executable exactly if the code, or the tag of another contract, it is to refer to exists and may be read, and the transaction may write its instance; no authorization is asked for. A contract is created exactly if the kind of its ID goes with the kind of its executable, its deployer has authorized exactly this creation, no contract with this ID exists, the code or tag exists and may be read, the transaction may write the new instance, and the constructor, run as a call with empty instance storage, returns nothing; contracts whose code is older than constructors must be given no arguments, and the asset contract is initialized instead. Then, and only then, the result is the ID. Nothing else can prevent it.", "quantifier": "every environment, transaction with an enforced footprint, state it can reach, code, executable, deployer, preimage, constructor and program of account contracts", "why_tests_cant": "Exactness ranges over all states of the ledger, footprints and authorization entries: tests show that some creations fail, not that no other ones do.", "anchors": ["soroban-env-host/src/host/lifecycle.rs: upload_contract_wasm, create_contract_with_optional_auth, create_contract_with_id, call_constructor, update_current_contract_executable", "soroban-env-host/src/host/data_helper.rs: store_contract_instance, verify_wasm_exists, verify_executable_ref_entry_exists", "soroban-env-host/src/host/frame.rs: call_n_internal, get_contract_protocol_version"]}
{"id": "C96", "title": "Decoding ledger entries lazily cannot be observed", "statement": "A host is given ledger entries encoded and decodes an entry when it is first read. As long as the entries a transaction reads are sound (they decode, to an entry of the key they are stored under), all its operations have the results they would have if all entries had been decoded at the start, and it reports the same changes, whatever the entries it does not read contain. No entry is decoded, and paid for, more than once, even if the calls that read it are rolled back, and only entries that are read or declared read-write are. An entry that cannot be decoded exists but cannot be read; one of another key fails to be read the first time.", "quantifier": "every footprint, list of encoded entries or snapshot, decoder and encoder, and every program of storage operations with nested calls and rollbacks, whose operations depend on earlier results", "why_tests_cant": "Decoding is memoized in cells shared by the current and all saved maps; equivalence must hold for every interleaving of reads, writes, extensions and rollbacks, and for arbitrary contents of unread entries.", "anchors": ["soroban-env-host/src/host/ledger_entry.rs: LazyLedgerEntry::from_encoded, from_decoded, is_decoded, decoded, ledger_entry_to_ledger_key", "soroban-env-host/src/storage.rs: try_get_host_ledger_entry, try_get_full_helper, has, put_opt_helper, prepare_extend_ttl, apply_ttl_extension, prepare_read_only_access", "soroban-env-host/src/e2e_invoke.rs: build_storage_map_from_xdr_ledger_entries, get_ledger_changes"]}
{"id": "C97", "title": "Exactly when storage functions succeed, and what they do", "statement": "A contract can read an entry of its storage exactly if the entry exists and the transaction has declared it (or is recording), and then gets the entry as the transaction has left it; it can ask whether an entry exists exactly if it is declared; it can write exactly if the entry is declared read-write, and an executable tag only in persistent storage and only with the hash of code that exists and is declared; it can delete exactly if the entry is declared read-write and is no tag, whether it exists or not; it can extend a lifetime exactly if the request is valid, the entry exists and is declared, if only for reading, and a temporary entry is not asked to live longer than entries can. A write keeps the lifetime of the entry it replaces and gives a new entry the minimum lifetime of its durability; an extension follows the published rule. Functions that fail change nothing.", "quantifier": "every state reachable in any transaction, recorded or enforced, every contract, key, value, durability and request", "why_tests_cant": "Success and effect depend on the footprint, the history of the transaction (writes, deletions, rollbacks), lifetimes and network settings; tests cover samples of these combinations.", "anchors": ["soroban-env-host/src/host.rs: put_contract_data, has_contract_data, get_contract_data, del_contract_data, extend_contract_data_ttl, extend_contract_data_ttl_v2", "soroban-env-host/src/host/data_helper.rs: validate_put_contract_data, put_contract_data_into_ledger", "soroban-env-host/src/storage.rs: get, has, put, del, extend_ttl, extend_ttl_v2"]}
{"id": "C98", "title": "Contracts run as if they were alone", "statement": "Whatever other contracts do in a transaction (calls in the middle of calls, failures that are rolled back, code of contract accounts that checks authorizations, creations and upgrades), the data of a contract that exists (its entries and its instance storage) ends as if some of its functions had run one after the other, each from its first to its last line with nobody else touching this data; so whatever each function of the contract keeps true of its data, read by itself, every transaction keeps true. While a contract waits for a call its data does not change, and the only code that can run on it before the running function has ended is its own __check_auth, where it asks for an authorization by its own address.", "quantifier": "every transaction, successful or not, every contract, every set of functions it has, all code of all other contracts, all authorization entries and ledgers", "why_tests_cant": "Reentrancy and interleavings range over all call graphs and over code of contracts that is not written yet; a test fixes both.", "anchors": ["soroban-env-host/src/host/frame.rs: with_frame, push_context, pop_context, call_n_internal, persist_instance_storage, reload_instance_storage", "soroban-env-host/src/host.rs: call, try_call, put_contract_data, get_contract_data, has_contract_data, del_contract_data", "soroban-env-host/src/auth.rs: require_auth, authenticate", "soroban-env-host/src/host/lifecycle.rs: create_contract_with_optional_auth, call_constructor"]}
{"id": "C99", "title": "What each function of a contract keeps true, whole ledger histories keep true", "statement": "Over every history of the ledger (transactions that succeed or fail, temporary entries that are removed after they have expired), all that happens to the data of an existing contract is that its functions are run, one after the other and each as if it was alone, and that temporary entries disappear; entries a transaction has not declared stay as they are, and the contract itself stays. The same holds of a contract that does not exist yet and is created in the history: its constructor is the first function that is run on its data. So whatever each function of a contract, read by itself, keeps true of its data, and the end of temporary entries does not make false, is true after every history. If it is also true of no data at all, it is true from before the contract exists on.", "quantifier": "every history of any length, every transaction in it with its own network limits, footprint and authorization entries, every contract and every set of functions it has, all code of all other contracts", "why_tests_cant": "It is about all sequences of transactions with any contracts, including those that do not exist yet, and about when entries expire; a test runs a few chosen transactions.", "anchors": ["soroban-env-host/src/host/frame.rs: with_frame, invoke_function", "soroban-env-host/src/storage.rs: Storage", "soroban-env-host/src/e2e_invoke.rs: invoke_host_function, get_ledger_changes, build_storage_map_from_xdr_ledger_entries", "soroban-env-host/src/ledger_info.rs: get_key_durability"]}
{"id": "C100", "title": "The work of maps and vectors is paid for, and metering does not change it", "statement": "Every operation of the host on a map or vector pays for the elements it reads and copies: at every moment its charges cover what it has done so far, except for the elements of a new collection that it copies before it pays, and when it ends without the budget refusing a charge they cover those too, and the allocation. A lookup looks at no more entries than the length has binary digits. Operations have the results they would have without metering, or the error of the refused charge. So the instruction limit of a transaction bounds the bytes that all its collection operations read and copy together.", "quantifier": "every operation and every sequence of operations, going on after errors or not, every content and length, every comparison (also a failing or inconsistent one), every element type, every budget and every price of copies", "why_tests_cant": "The claim is an inequality between work and charges at every moment of every operation for all sizes and all answers of the comparisons; a test compares a few counts.", "anchors": ["soroban-env-host/src/host/metered_map.rs: charge_access, charge_scan, charge_binsearch, from_map, from_exact_iter, find, insert, get, get_at_index, remove, contains_key, keys, values, iter, compare", "soroban-env-host/src/host/metered_vector.rs: all operations, binary_search_by_pre_rust_182", "soroban-env-host/src/host/metered_clone.rs: charge_deep_clone", "soroban-env-host/src/budget.rs: charge"]}
{"id": "C101", "title": "A simulation declares what the authentication of its signers will read", "statement": "When the outermost call of a simulation that records authorizations ends, successfully or not, the recorded footprint gets, besides the keys used by the call, exactly the keys needed to authenticate the recorded signers other than the source account: the account entry of a classic account; for a contract its instance, the code it has, and the executable reference it goes through; for reading, or for writing if the entry must come from the archive. Nothing else changes: not the result, the ledger, the events or the authorizations, and the emulation cannot fail. A transaction with at least this footprint is never refused for its footprint before the code of a signer runs: an account is authenticated exactly if it exists and accepts the signatures, a contract that is not running exactly if it and its code exist, there are not too many calls and __check_auth returns nothing, as long as the signer's instance names the same code as at the end of the simulation.", "quantifier": "all snapshots, all sequences of reads, writes, extensions and rolled back calls before, all lists of signers, all rollback points, all reachable states of transactions with larger footprints, all programs of __check_auth", "why_tests_cant": "tests simulate particular calls with a few signers; archived code, references, contracts without instance and calls that change what signers run combine without bound", "anchors": ["soroban-env-host/src/auth.rs: maybe_emulate_authentication, emulate_authentication", "soroban-env-host/src/host/frame.rs: pop_context", "soroban-env-host/src/builtin_contracts/account_contract.rs: check_account_authentication"]}
{"id": "C102", "title": "The signature of a Stellar account has one form", "statement": "The signature value given for a Stellar account in an authorization entry is accepted exactly if the account exists and the value is a vector of maps with exactly the two fields public_key, of 32 bytes, and signature, of 64 bytes, such that the signatures sign the payload for the account: one to twenty of them, keys strictly increasing as bytes, each valid, each key with a weight, the weights adding up to the medium threshold. Anything else (missing or additional fields, other types, other lengths, a signature outside of a vector) is refused. The same keys and signatures have only one such value.", "quantifier": "all signature values, all object tables they are converted into, all accounts, payloads and signature schemes", "why_tests_cant": "tests sign with generated keys and a few malformed values; the values that a signature can be are unbounded", "anchors": ["soroban-env-host/src/builtin_contracts/account_contract.rs: check_account_authentication, AccountEd25519Signature", "soroban-env-host/src/builtin_contracts/base_types.rs: BytesN"]}
{"id": "C103", "title": "Values of Rust types mean the same in the host and come back", "statement": "A value of a Rust type built from (), bool, the integers of 32 to 256 bits, time points, durations, Error, Option, Result and tuples is converted to a host value that stands for the ledger value it means: nothing is void, something and a success are their content, a failure is its error, a tuple is a vector. The conversion succeeds whenever there is room for the objects. A host value is read as a type exactly if it stands for the meaning of some value of the type, and what is read has that meaning. The types whose values all come back unchanged are exactly those without an Option of something that can be void and without a Result of something that can be an error; for other types a value is read as nothing, or as a failure.", "quantifier": "all types of any nesting and width, all their values, all object tables, all host values that pass the integrity check", "why_tests_cant": "tests convert a few values of a few types; types nest without bound and numbers change representation at boundaries", "anchors": ["soroban-env-common/src/convert.rs", "soroban-env-common/src/option.rs", "soroban-env-common/src/result.rs", "soroban-env-common/src/tuple.rs", "soroban-env-common/src/val.rs: ValConvert"]}
{"id": "C104", "title": "Symbols read as the same text in either form", "statement": "Rust code reads a symbol, whether it is a word of characters or an object, as its text: the length, the emptiness, the conversion back to a ledger value, the match with a sequence of bytes and the comparison of what was read are those of the text. Exactly the texts of at most 32 letters, digits and underscores are made symbols, and the symbol has the text it was made of. The comparison of two symbols with the environment follows their texts if both have the same form; otherwise the symbol without an object is the smaller one, whatever the texts are, so that this comparison is neither the order of texts nor the order of host values.", "quantifier": "all tables of host objects, all symbols in both forms, all sequences of bytes", "why_tests_cant": "texts up to 32 characters in two representations and all pairs of them; padding and boundaries between the forms matter", "anchors": ["soroban-env-common/src/symbol.rs: SymbolStr, TryFromVal<E, Symbol>, Compare<Symbol>", "soroban-env-host/src/host/mem_helper.rs: compare_symbol_to_bytes, symbol_matches", "soroban-env-host/src/host/comparison.rs: Compare<SymbolStr>"]}
{"id": "C105", "title": "Errors are words with one meaning, and failures of libraries become errors that say whether they can be caught", "statement": "The word of an error holds its type and code and is read back as the same error; a word with the tag of errors whose numbers are not those of a type and a code means no error. Words of errors are equal exactly if the errors are, and are ordered by type and then code, as in XDR. A failed call can be caught exactly if its error is not an internal error of the host and does not say that the budget or the footprint is exceeded; errors of contracts can always be caught, whatever their code. A failure of the Wasm engine is an error that cannot be caught exactly if the engine ran out of memory, table space, fuel or stack; every other failure of the engine, and every failure to read XDR, a symbol or a value, can be caught.", "quantifier": "all errors, all 64-bit words with the tag of errors, all failures of the engine, the parser and XDR", "why_tests_cant": "2^56 words carry the tag of errors, and contract errors have any 32-bit code, which must not be taken for codes of the host", "anchors": ["soroban-env-common/src/error.rs: Error, from_scerror, TryFrom<Error> for ScError, Ord for Error, is_type, is_code, From<wasmi::Error>, From<wasmi::core::TrapCode>, From<xdr::Error>", "soroban-env-host/src/host/error.rs: is_recoverable"]}
{"id": "C106", "title": "Contracts cannot see the objects that debug mode makes", "statement": "Two hosts run the same contracts on the same arguments, and each makes diagnostics of its own: any objects with any contents, before any call and after any failure, put into the table that also holds the objects of contracts. As long as neither table is ever full, every contract gets the same words as arguments, and the same words and the same linear memory from every call, in both hosts, comparisons of its objects give the same results, calls fail with the same errors, the ledger data with all instance storage and any other state that functions on ledger values act on end up the same, the events of contracts are the same, and the caller outside gets the same ledger value or the same error.", "quantifier": "all contracts (arbitrary code that may depend on all words it got, calls each other and catches failures), all functions that take and give ledger values and act on a state, all valid arguments and tables, all schedules and contents of diagnostics", "why_tests_cant": "whether the places of objects leak depends on every sequence of calls, comparisons, nested vectors and maps and failed calls; validators with and without diagnostics must agree on all of them", "anchors": ["soroban-env-host/src/host.rs: with_debug_mode_allowing_new_objects, try_call", "soroban-env-host/src/host_object.rs: relative_to_absolute, absolute_to_relative, add_host_object", "soroban-env-host/src/vm/dispatch.rs", "soroban-env-host/src/vm.rs: invoke_function_raw", "soroban-env-host/src/host/conversion.rs: from_host_val_for_storage, from_host_val, to_valid_host_val", "soroban-env-host/src/events/internal.rs: to_xdr, rollback, externalize", "soroban-env-host/src/host/frame.rs: maybe_init_instance_storage, persist_instance_storage"]}
{"id": "C107", "title": "Contracts are told the truth about the ledger and about themselves", "statement": "Asked for the protocol version, the sequence number, the time or the network id of the ledger, for the running contract or for the last ledger that entries can live until, the host gives a contract a word that stands for exactly that, whatever 32-bit or 64-bit number it is, and everything the contract held before stands for the same as before. There is an answer unless no contract runs or that last ledger has no 32-bit number, and then the call fails. A live entry whose life is extended by the ledgers from the current one to the last one told lives until exactly that one, or longer if it did already.", "quantifier": "all ledgers, all stacks of frames, all tables with room, all words held, all reachable states of storage", "why_tests_cant": "times change from inline numbers to objects at 2^56, the last ledger may overflow, and the words given must not disturb those given before, for every history of the frame", "anchors": ["soroban-env-host/src/host.rs: get_ledger_version, get_ledger_sequence, get_ledger_timestamp, get_ledger_network_id, get_current_contract_address, get_max_live_until_ledger, with_ledger_info", "soroban-env-host/src/host/ledger_info_helper.rs: max_live_until_ledger", "soroban-env-host/src/ledger_info.rs: max_live_until_ledger_checked", "soroban-env-host/src/host/frame.rs: get_current_contract_id_internal"]}
{"id": "C108", "title": "A simulation returns exactly the recorded authorization, unsigned and with fresh nonces", "statement": "A simulation that records authorization returns one authorization entry for every recorded tree, in the order in which they were begun. Each entry is for the address that was asked and holds its tree. Entries of the source account carry no credentials; the others have the version of credentials asked for, no signature, expiration 0 and a nonce from 0 to 2^63-1. No two entries share an address and a nonce, and no nonce is in the ledger already, so all entries can be used together. Calls that fail leave no entry behind. The entries whose processing is metered are the returned ones with signatures of 512 bytes. Entries given by the user are returned as they are.", "quantifier": "all sequences of requests, calls and failing calls, nested to any depth, all random numbers, all sets of nonces in the ledger, all trees", "why_tests_cant": "nonces are random, and clashes and rollbacks of calls in the middle of a simulation are rare in tests; freshness must hold for every sequence of random numbers and every nesting of failures", "anchors": ["soroban-env-host/src/e2e_invoke.rs: into_auth_entry_with_emulated_signature, clear_signature, invoke_host_function_in_recording_mode", "soroban-env-host/src/auth.rs: AccountAuthorizationTracker::new_recording, get_recorded_auth_payload, get_recorded_auth_payloads, consume_nonce"]}
