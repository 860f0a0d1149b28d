# Formal model of blend-contracts: design

## Trusted base
* Lean 4.33.0's kernel and the standard axioms `propext`, `Classical.choice`, `Quot.sound` (listed per theorem at the end of
  this file). No own axioms, no compiled evaluation; `decide +kernel` (used for concrete runs only) is evaluated by the kernel.
* The faithfulness of the hand-written model in `lean/Verif/Model/` to `/repo`. Each definition cites file and lines.
  `lean/Verif/Examples/Tests/` reproduces, evaluated by the kernel, the asserted results (values and error codes) of the unit tests
  of the four contracts (about 325 of them) and of the integration tests in `test-suites/tests`, which are played through all
  contracts by `step` (`Fixture`, `Liquidation`, `PoolUser`, `HappyPath`); no mismatch with the model was found.
* External contracts, which are not in /repo, are modelled by their documented behaviour:
  SEP-41 tokens (an ideal ledger: a transfer moves exactly the amount, fails on a negative amount or a lack of balance),
  SEP-40 oracles (any prices, which change at any time between transactions but not within one),
  the Comet LP pool (any non-negative number of LP tokens for a deposit, any non-negative share total; its value per LP token
  is computed from its balances as in the code), `soroban-fixed-point-math` (checked product, exact floor or ceiling).

## What is modelled
All four contracts (pool, backstop, emitter, pool factory), every entry point that changes state, function by function, as
total functions in `Except Err`: a panic is `.error` and reverts the whole transaction. `i128` is `Int` with an explicit
range check after each operation, `u32`/`u64` are `Nat` with range checks. Storage is one record per contract, its keys are
functions or finite maps. `Model/System.lean` composes them: one `Op` is one top level transaction by any caller with any
set of authorizing addresses, or one change of the environment (time, ledger sequence, oracle prices, tokens moved or
minted by outsiders, Comet, expiry of temporary entries). `Reachable` is the set of worlds reached from a
deployment in which nothing is initialized, in any number of steps.

| model file | code |
|------------|------|
| `Model/Base.lean`, `Model/Types.lean` | checked arithmetic, errors, storage types of all contracts, token ledger |
| `Model/Reserve.lean` | `pool/src/pool/{interest,reserve,pool}.rs` |
| `Model/PoolUser.lean` | `pool/src/pool/{user,health_factor}.rs` |
| `Model/PoolEmissions.lean` | `pool/src/emissions/*.rs` |
| `Model/Auctions.lean` | `pool/src/auctions/*.rs`, `pool/src/pool/bad_debt.rs` |
| `Model/Submit.lean` | `pool/src/pool/{actions,submit,status,config}.rs`, `pool/src/contract.rs` |
| `Model/Backstop.lean` | `backstop/src/**` |
| `Model/Emitter.lean` | `emitter/src/**` |
| `Model/System.lean` | `pool-factory/src/pool_factory.rs`, dispatch, environment, `Reachable` |
| `Model/Views.lean` | return values of all entry points (`contract.rs` of every contract), read-only entry points |
| `Model/Ttl.lean` | time to live of the entries in temporary storage (`pool/src/storage.rs`, `backstop/src/storage.rs`) |
| `Model/Events.lean` | the events all entry points publish, with their topics and data, in order (`e.events().publish` in all four contracts) |

Ghost state (written by the model, never read by modelled code): `PoolState.received`/`claimed` (BLND allotted to and claimed
for a reserve token), `PoolState.writtenOff` (debt written off per asset), `BackstopState.received`/`claimed` (BLND allotted to
and claimed by a pool's depositors), `Token.minted`.

## What is not modelled
* Events of token contracts and other external contracts. (The events of the four contracts are: `Model/Events.lean`. Return
  values are: `Model/Views.lean` extends `step` to `exec`, which also returns what the entry point returns.)
* Archival and bumping of persistent and instance entries (an archived entry can be restored, nothing is lost). Temporary entries
  (auctions, queued reserves, drop list) may vanish at any time in `Model/System.lean`, so most theorems hold whenever they
  vanish; `Model/Ttl.lean` adds their times to live, with which they vanish only when these are over (C81).
* Pool names, wasm upload, address derivation (an arbitrary function `deployAddr`), host metering and limits.
* The authorization tree below the top level call: an authorization is the set of addresses that authorized the call.
  Token transfers *from* an account happen only after that account's `require_auth` in the same call.
* Pools wired to a backstop other than the modelled one, backstops wired to another factory or emitter: the model stops with
  `Err.notModelled`, so the theorems say nothing about operations of such deployments. Deploying to an existing pool
  address fails, as in the host.
* Reentrancy: tokens, oracle and Comet never call back.
* Ledger timestamps and sequence numbers are unbounded naturals (range checks where the code computes with them).

## Method
* `lean/Verif/Spec.lean` and `lean/Verif/Spec/*.lean` hold the specifications: they use the model's data types only, not its
  functions (one exception, `Spec.Current`, names the accrued state of a reserve by the model's `accrue`; what that is
  is specified separately by `Spec.Accrues` and proved as C47).
* `lean/Verif/Props/*.lean` hold the theorems `Cxx_*`, one or more per property, each with an `example` that a concrete
  reachable state meets its hypotheses. The runs are in `lean/Verif/Examples/*.lean`.
* `lean/Verif/Lemmas/*.lean` hold the proofs: inversion of successful runs, decomposition of every operation of the
  pool (`PMicros`) and of the backstop (`BMicros`) into micro steps, inductive invariants, frames.
* `seeded/LOG.jsonl` logs the wrong programs the theorems were tested against.

## Findings
Places where the code does not do what its documentation or a user would expect; each is a theorem or a concrete run.
1. A backstop claim credited to another address mints shares there before that address's emissions are updated: it is
   paid for time before it had the shares, and more is paid out than was distributed (`C38_fails`).
2. While all shares of a pool with running emissions are queued for withdrawal, deposits for it, queueing, dequeueing and
   claiming revert, and `gulp_emissions` reverts for every pool (C44).
3. An interest auction not filled within 400 ledgers can never be filled and blocks new ones; a bad debt auction cannot be
   filled in its first ledger (C43).
4. Utilization can exceed `max_util` at the end of a submit with a borrow (`C14_not_after_withdrawal`).
5. The percentage of a fill counts only the lowest 64 bits of the amount (`C16_percentage_wraps`).
6. With fewer than five oracle decimals the health buffer is zero (`C09_buffer_needs_decimals`).
7. The asset list of a new interest auction may repeat an asset: its interest is offered once but counted every time in the
   bid and in the minimum value (`C49_duplicate_assets`).
8. Emissions of a reserve token that run while nobody holds it go to the first supplier as soon as anything updates the
   token again, even later in his own submission (`C50_first_supplier_takes_all`).
9. A backstop claim that names a pool twice pays the BLND, but the LP tokens bought with it are credited to no pool and stay in
   the backstop for ever (`C51_duplicate_pools`).
10. Withdrawals are not checked against the debts of the reserve: with tokens sent to the pool, or those of the backstop's
   interest, the deposits can be withdrawn from under the debts, and the borrow rate explodes (`C14_above_one`).
11. `queue_set_reserve` bounds neither the slopes nor their sum, but the curve adds three of them in `u32`: an accepted setting
   makes a reserve unusable for ever, including for new settings, once it is used above 95 percent (`C52_steep_slope_blocks`).
12. If the emitter is swapped away from a backstop and later back to it, the backstop counts the time in between at its next
   gulp, although nothing was minted to it: it promises BLND it does not have (`C55_fails_after_return_swap`).
13. The BLND allowance a pool gets with a gulp lapses 120 days after the last gulp: if nobody gulps for so long, users' claims
   fail (`C56_lapse_blocks_claims`); the next gulp then replaces the lapsed allowance by the new emissions alone, and what had
   been allotted before is not covered any more (`C56_fails_after_lapsed_gulp`).
14. An unhealthy but solvent account can be impossible to liquidate: with the demo pool and an XLM price of 0.0698 (health
   factor 0.82) 100 percent is rejected as too large because the quote falls just short of the collateral, and every smaller
   percentage is rejected because what is left would be below 1.03 (`C58_gap`). Prices a little lower or higher make 100 or
   99 percent possible again.
15. A liquidation auction outlives its reason: it is not removed when the account becomes healthy or pays its debts, and
   after 400 ledgers anybody takes the collateral of an account without any debt for nothing
   (`C18_debt_free_account_is_liquidated`).
16. The account under liquidation can make fills fail by repaying a little just before them (`C58_repayment_blocks_fill`).
17. When bad debt takes all backstop tokens of a pool while shares exist, deposits, interest auctions and bad debt auctions
   of that pool fail from then on (division by the number of tokens), until somebody donates (`C54_drained_backstop_blocks`).
18. A liability factor of 0 is an accepted setting; accounts that owe to such a reserve cannot be liquidated
   (`C58_zero_liability_factor`).
19. A new backstop take rate is applied to interest that was earned before it was set (interest that has not been accrued
   yet): the value of supply shares falls at the moment the admin raises the rate (`C63_take_rate_is_retroactive`).
20. Anybody can gulp the emissions of a pool whose admin has not set an emission split (or whose split sums to less than 100
   percent): the pool takes the waiting BLND, but no reserve token gets it, and nobody can ever claim it
   (`C71_gulp_without_split`).
21. The `fill_auction` event carries the requested amount, which the code cuts to 64 bits before it is used as percentage; an
   observer has to do the same (amount 2^64 + 50 fills 50 percent). `deploy` and `initialize` of a pool publish neither its
   oracle nor its backstop, and `set_emissions_config` publishes nothing.
22. The ratio by which debts grow is rounded up to 9 decimals, and so is the value of a debt share, at every accrual: every ledger
   in which anybody acts on a reserve adds at least `10⁻⁹` to its debts (`C78_at_least`), about 0.6 percent a year with a ledger
   every five seconds, whatever the rate is (the lowest configurable base rate is 0.01 percent). In the demo, at a rate
   of 3.6 percent, acting in each of 20 ledgers makes a loan a fifth more expensive than acting once.
23. `set_emissions_config` and the `initialize` functions publish no event: the split of a pool's emissions among its reserves
   cannot be followed from the events (only the schedules can, after each gulp, C80). The `rw_zone` event names the pool to
   be removed also when nothing is removed, because there was room: an observer must compare the length of the zone with its
   maximum at that time.
24. The drop list is in temporary storage and is written only when the backstop is set up: if `drop` is not called within 120 days
   it is gone for ever (`C81_drop_list_gone`; a comment in the code expects that for a replacement backstop). An interest
   auction nobody fills blocks the pool's interest auctions for 45 days (`C81_interest_blocked`).
25. An interest auction that is filled after the last backstop depositor of the pool has left pays whoever deposits next
   (`C34_first_deposit_takes_donations`).
26. The emission index counts whole units of BLND (10^-7) per whole token, and every update rounds it down and moves the time of
   the last update: with frequent updates emissions are lost (`C83_pool_starved`, `C83_backstop_starved`). A reserve token that is emitted
   0.15 BLND per second and has a supply of 7.5 million tokens emits nothing at all while anybody (a claim by a stranger is
   enough, `C83_anyone_can_starve`) updates it in every ledger. The BLND stays in the backstop.
27. The value of the backstop token is a spot value of the LP pool and anybody can refresh it at any moment: by a swap, a refresh, the
   creation of an interest auction and a swap back in one ledger, a pool's interest is offered for half of the backstop tokens
   (`C93_spot_value`); without refreshes it can be arbitrarily old.
28. A debt that is written off lowers nobody's supply shares: whoever withdraws first is paid in full and the last ones bear the loss
   (`C02_last_bears_the_loss`).
29. Dequeueing takes from the oldest entries of the withdrawal queue, so it does not undo the last queueing: it costs the depositor
   entries whose 21 days are over (`C32_dequeue_is_no_undo`).

## Properties
| id | property | modelled | proof | theorems |
|----|----------|----------|-------|----------|
| C01 | Share totals equal the sum of user positions | all entry points of the pool | every operation is decomposed into micro steps (`Lemmas/Micro*.lean`); the sums are an invariant of each micro step, users in flight in a submit are tracked in an overlay of the storage | `C01_share_totals`, `C01_balances_positive` |
| C02 | Pool solvency | pool and token ledger | invariant of micro steps, with the ghost counter `writtenOff` for bad debt that was written off; that nothing but a write-off moves the counter, and by how much, is proved along the requests of a submit (`Lemmas/WriteOff.lean`) | `C02_solvency`, `C02_written_off`, `C02_no_write_off`, `C02_last_bears_the_loss` |
| C03 | No rounding profit from supply and withdraw | submit | exact effect of each request (`Lemmas/Plain.lean`), then arithmetic on floor and ceiling; round trips over a whole submit | `C03_refinement`, `C03_no_profit`, `C03_round_trip`, `C03_supply`, `C03_withdraw` |
| C04 | No rounding profit from borrow and repay | submit | exact effect of each request against `Spec/Submit.lean` | `C04_borrow`, `C04_repay` |
| C05 | Debt and supply share values never fall | pool, all operations | inductive invariant / monotone along `Steps` | `C05_rates_never_fall` |
| C06 | Interest rate modifier stays bounded | pool, all operations | inductive invariant | `C06_rate_modifier_bounded` |
| C07 | Accrual is at least one and idempotent in a ledger | `Reserve::load`, `calc_accrual` | arithmetic | `C07_accrual_factor_ge_one`, `C07_accrual_idempotent` |
| C08 | Interest rate is monotone in utilization | `calc_accrual` | arithmetic on the three legs, case analysis over pairs of legs | `C08_rate_monotone` |
| C09 | Health check after risky requests | submit, health factor | inversion of a successful submit, the cached reserves hold current rates (`Lemmas/Health.lean`) | `C09_health`, `C09_buffer_needs_decimals` |
| C10 | A submit touches only the caller's account, the liquidated account and the backstop | submit and every other operation | frame of every operation, induction over the request list | `C10_submit`, `C10_positions`, `C10_liquidated` |
| C11 | Status gates requests | submit | inversion; for the liveness half the same run is replayed with another status | `C11_gates`, `C11_never_blocks` |
| C12 | Status transition table | status updates | inversion against a table written separately | `C12_status_range`, `C12_update`, `C12_set`, `C12_only`, `C12_settles`, `C12_settles_twice` |
| C13 | Maximum number of positions | submit | inversion; for the liveness half replay with another bound | `C13_bound`, `C13_never_blocks` |
| C14 | Utilization cap at borrow | submit | inversion; concrete counterexample run for the finding | `C14_above_one`, `C14_utilization`, `C14_not_after_withdrawal` |
| C15 | Auction price schedule | auction scaling | arithmetic against `Spec/Auction.lean` | `C15_schedule`, `C15_ends`, `C15_liquidation_monotone`, `C15_badDebt_monotone`, `C15_interest_monotone` |
| C16 | Partial fills conserve the auction | auction scaling, all operations | arithmetic; induction over histories for the sum of all fills | `C16_liquidation_fill`, `C16_badDebt_fill`, `C16_interest_fill`, `C16_percentage`, `C16_full_fill_removes`, `C16_history`, `C16_percentage_wraps` |
| C17 | An auction cannot be filled before its start block | auction creation, all operations | inversion, step induction | `C17_created`, `C17_not_started`, `C17_same_ledger` |
| C18 | Liquidations need an unhealthy account and stay within the close limits | liquidation creation | inversion, values against `Spec/Health.lean` | `C18_debt_free_account_is_liquidated`, `C18_only_unhealthy`, `C18_terms`, `C18_health_after`, `C18_full` |
| C19 | One auction at a time | auctions, all operations | inversion and frames | `C19_no_second`, `C19_error`, `C19_not_replaced` |
| C20 | A liquidation is cancelled only when healthy | submit | inversion | `C20_healthy`, `C20_only_owner` |
| C21 | Bad debt moves, it does not vanish, and only from accounts without collateral | bad debt | inversion; threshold arithmetic (`Lemmas/Threshold.lean`) | `C21_transfer`, `C21_write_off` |
| C22 | Reserve changes are timelocked | queue of reserve changes | invariant over histories | `C22_timelock` |
| C23 | Reserve configuration stays valid and identity is stable | reserve configuration | inductive invariant | `C23_config_valid`, `C23_identity_stable` |
| C24 | Pool emission shares never exceed 100 percent | emission split | induction over the list | `C24_accepts`, `C24_split_bounded` |
| C25 | Emission indexes only grow | emission distributors of pool and backstop | inversion and arithmetic | `C25_backstop_index_step`, `C25_backstop_index_monotone`, `C25_pool_index_step`, `C25_pool_index_monotone` |
| C26 | Users are never paid more pool emissions than were distributed | pool emissions, all operations | potential function over micro steps, ghost counters `received`, `claimed` | `C26_counts`, `C26_pool_emissions_bounded` |
| C27 | Admin functions need the admin | admin entry points | inversion of `require_auth` | `C27_admin_auth`, `C27_admin_effects` |
| C28 | Initialization happens once | all operations | step induction | `C28_pool`, `C28_backstop`, `C28_emitter`, `C28_factory` |
| C29 | No one can take tokens or positions without authorization | all operations | every decrease of a balance is traced to a payer who authorized (`Lemmas/Payers.lean`) | `C29_consent`, `C29_tokens`, `C29_backstop`, `C29_positions` |
| C30 | Backstop share accounting | backstop, all operations | inductive invariant | `C30_share_accounting` |
| C31 | Backstop is fully funded | backstop and token ledger | inductive invariant | `C31_backstop_funded` |
| C32 | 21 day withdrawal queue | withdrawal queue | list induction, frames | `C32_queue_shape`, `C32_queue`, `C32_dequeue`, `C32_withdraw`, `C32_only_withdraw`, `C32_lock`, `C32_dequeue_is_no_undo` |
| C33 | Backstop share price never falls except by draws | backstop conversions | arithmetic | `C33_share_price` |
| C34 | No rounding profit from backstop deposit and withdrawal | backstop operations | arithmetic on floor | `C34_no_profit`, `C34_first_deposit_takes_donations` |
| C35 | Only pools can draw, only with their own authorization | draw and donate | inversion, frames | `C35_draw_entry`, `C35_only_own_draws`, `C35_only_factory_pools` |
| C36 | Reward zone integrity | reward zone | inductive invariant, inversion | `C36_reward_zone`, `C36_changes`, `C36_add_succeeds` |
| C37 | Emissions are split, not created, by the backstop | `gulp_emissions` | list induction | `C37_gulp`, `C37_only_gulp` |
| C38 | Backstop depositors are never credited more than distributed | backstop emissions | potential function over backstop micro steps for histories of own claims; concrete run for the counterexample | `C38_own_claims`, `C38_fails`, `C38_counts` |
| C39 | The emitter mints exactly one token per second | emitter | history induction | `C39_emission`, `C39_distribute`, `C39_per_second` |
| C40 | One drop per backstop, at most 50 million | emitter swap | history induction | `C40_drop`, `C40_once` |
| C41 | Backstop swap needs 31 days and a larger balance | emitter drop | history induction | `C41_swap`, `C41_one`, `C41_cancel` |
| C42 | Factory registry is exact | pool factory | inductive invariant | `C42_never_forgets`, `C42_registry`, `C42_deploy`, `C42_wired` |
| C43 | Interest auctions can become unfillable and then block | auction fills | inversion from every state that satisfies the hypothesis | `C43_unfillable`, `C43_stuck`, `C43_badDebt_first_ledger` |
| C44 | Queueing all shares of a rewarded pool freezes the backstop | backstop claim | inversion from every state that satisfies the hypothesis | `C44_all_queued_reverts` |
| C45 | A submit does exactly what its requests are documented to do | submit | step by step refinement of the request loop to the books of `Spec/Submit.lean` and `Spec/Auction.lean` | `C45_submit` |
| C46 | Pools are isolated from each other | all operations | frames of every operation | `C46_storage`, `C46_backstop`, `C46_tokens` |
| C47 | Interest accrues by the documented curve | interest | bounds over the rationals for each rounding; frames for all other operations | `C47_accrual`, `C47_rates_change` |
| C48 | Interest is split without loss | interest | arithmetic from C47 | `C48_interest_split` |
| C49 | Terms of bad debt and interest auctions | auction creation, backstop, oracle, interest | inversion of the creation code, induction over the assets | `C49_bad_debt_terms`, `C49_interest_terms`, `C49_duplicate_assets` |
| C50 | Pool emissions accrue exactly pro rata, and a claim pays exactly that | pool emissions, all pool operations | every operation is a sequence of small steps (Micro); a relation on what a user can claim is kept by each and composes (EntRel); induction over the claimed tokens | `C50_entitlement_step`, `C50_entitlement_growth`, `C50_claim_exact`, `C50_first_supplier_takes_all` |
| C51 | Backstop emissions accrue exactly pro rata, and a claim pays exactly that | backstop emissions and claims | case analysis over all operations; induction over the two loops of a claim | `C51_entitlement_step`, `C51_claim_exact`, `C51_duplicate_pools` |
| C52 | Exits cannot be blocked | the whole path of a submit with one withdrawal or repayment: accrual, emission update, share burn, position limit, health check, token transfers | which errors every step can raise, generic in a set of errors (lemmas in LiveArith, LivePool, LiveSubmit); instantiated with all errors but the expected ones, and with all errors | `C52_withdraw_fails_only`, `C52_withdraw_succeeds`, `C52_withdraw_collateral_fails_only`, `C52_withdraw_collateral_succeeds`, `C52_repay_fails_only`, `C52_repay_succeeds`, `C52_steep_slope_blocks` |
| C53 | Return values tell the truth | return values of every entry point that returns something (`exec` in Model/Views.lean) and the read-only entry points | `exec` is proved to be `step` plus a value; every returned value is compared with the state, balances or view after the call | `C53_same_effects`, `C53_submit`, `C53_set_reserve`, `C53_update_status`, `C53_gulp`, `C53_claim`, `C53_new_auction`, `C53_deposit`, `C53_queue`, `C53_withdraw`, `C53_backstop_claim`, `C53_update_tkn_val`, `C53_distribute`, `C53_deploy`, `C53_pool_data` |
| C54 | Backstop depositors cannot be locked in | backstop queue, dequeue and withdraw as transitions; histories between queueing and withdrawing | the dequeue loop succeeds iff enough is unlocked (induction over the sorted queue); backstop funding (C31) gives the tokens; the queue is append-only under every operation except the own dequeue/withdraw | `C54_withdraw_iff`, `C54_unlocks`, `C54_after_21_days`, `C54_queue_iff`, `C54_dequeue_iff`, `C54_drained_backstop_blocks` |
| C55 | The BLND the backstop holds covers all emissions it has promised | emitter, backstop and pools together; all histories | invariant BlndInv (Lemmas/Blnd.lean): balance covers a finite sum of owed amounts plus undistributed seconds; per-operation lemma for every entry point; pot of the depositors at a later index from the potential argument of C38 | `C55_emissions_funded`, `C55_fails_after_return_swap` |
| C56 | Pool users' claims are covered by the pool's allowance and by BLND | pools, their emission records, the allowance of the token and the backstop together; all histories | ghost sums: received (allotted by gulps) minus claimed per reserve token; invariant PoolFund (Lemmas/PoolFund.lean): allowance covers their sum; pot of the users at a later index from the potential argument of C17; combined with C55 | `C56_allowance_covers`, `C56_all_backed`, `C56_lapse_blocks_claims`, `C56_fails_after_lapsed_gulp` |
| C57 | Claims of pool emissions cannot be blocked | execute_claim with its loop, transfer_from, the token allowance and balances; all histories | error calculus NoErr (Lemmas/NoStatus.lean, LiveArith.lean, LiveClaim.lean): every fallible step of the claim is shown not to fail given the invariants EInv, CfgOk and sizes; the amounts are bounded by received minus claimed (EInv.paid_le), covered by C55 and the invariant PoolFund of C56 | `C57_claim_fails_only`, `C57_claim_succeeds` |
| C58 | Insolvent accounts can always be liquidated | create_liquidation, create_user_liq_auction_data, calculate_from_positions, load_reserve with accrual, load_price; all histories | error calculus NoErr (Lemmas/LiveLiq.lean): every fallible step of the valuation, the quote and the amounts is shown not to fail, given that the values of the account exist (Spec.Values); the collateral factors being at most 1 and the liability factors at most 1 (CfgOk) make the quote for 100 percent cover the debt, hence the collateral (liqQuote_all). C58_gap: one reachable state, all percentages evaluated by the kernel, percentages above 100 by the range check | `C58_repayment_blocks_fill`, `C58_zero_liability_factor`, `C58_insolvent_fails_only`, `C58_insolvent_succeeds`, `C58_gap` |
| C59 | Exactly the submits that are in order go through | execute_submit, build_actions_from_request (types 0 to 5), require_action_allowed, require_under_max, require_utilization_below_max, the health check, the netted transfers; all histories | Spec/Plan.lean states the plan of the requests, the limits and the funds on account level, without caches. Soundness: induction over the requests in flight (plans, Lemmas/LivePlain.lean), the health check read at the values of the state before (orderly_of_ok). Completeness: the error calculus NoErr over each request in flight (request_flight), the health check (health_flight), the storing of the cache and the two rounds of transfers (orderly_live), each shown to fail by overflow at most; uniqueness of the plan identifies the outcomes | `C59_only_if`, `C59_accepted`, `C59_uncovered` |
| C60 | Bad debt can always be moved to the backstop | transfer_bad_debt_to_backstop with its reserve loads, emission updates and share operations; all histories | error analysis of the loop (badDebtLoop_live, Lemmas/LiveBadDebt.lean): each step keeps the invariants of the pool with both accounts in flight (VOk, Lemmas/LiveCtx.lean), under which loads, emission updates and share operations can only overflow; the effect is C21 | `C60_moved`, `C60_only` |
| C61 | Exactly the bad debt and interest auctions that have terms can be created | create_bad_debt_auction_data and create_interest_auction_data with loads, prices, the backstop data; all histories | error analysis of both creations (Lemmas/LiveNew.lean) against the terms of C49, whose uniqueness fixes the values the program computes; the converse is read off the loops | `C61_bad_debt_auction`, `C61_interest_auction`, `C61_interest_only_if`, `C61_bad_debt_only_if` |
| C62 | Exactly the submits that are in order go through, auctions included | all of execute_submit: the ten kinds of requests, the three fills and the deletion with the calls to the backstop, the limits, the health check and the netted transfers; all histories | Spec/FullPlan.lean extends the plan of C59 to books (all accounts, auctions, backstop tokens, interest, balances) with the effects of C45. Soundness: full_plans and inOrder_of_ok. Completeness: Lemmas/LiveFill.lean shows that each fill, in the middle of a submit, fails by overflow at most if its effect exists (collect_live, draw_live, badDebtFill_live, interestFill_live, auction_live); fullPlan_live and inOrder_live put them together; AuctionEffect.unique and FullPlan.unique identify the outcomes | `C62_only_if`, `C62_determined`, `C62_accepted`, `C62_uncovered`, `C62_refused` |
| C63 | Share prices are fixed within a ledger | all operations of the system: every one that touches reserve data accrues interest first and leaves the rates alone; all histories | Lemmas/DataStep.lean: in any step the data of a reserve is untouched or stored with the rates accrued up to now; accrual up to now is idempotent; Lemmas/LedgerRates.lean, induction over the history | `C63_prices_fixed`, `C63_debt_price_fixed`, `C63_take_rate_is_retroactive` |
| C64 | Within a ledger nobody else can change the health of an account | as C63, with positions, prices and parameters | Spec/SameLedger.lean says which operations do not concern an account; frame lemmas for positions (C10), oracles (Lemmas/OracleFrame.lean), configuration and list of reserves, then the values (Lemmas/LedgerHealth.lean) carry over in both directions | `C64_health_fixed`, `C64_not_liquidated` |
| C65 | Several submits in a ledger do the same as one | as C62 | the plan of C62 in the world after the first submit is the plan in the first world shifted by what has been paid already (Lemmas/Batch.lean, run_shift), outcomes are unique | `C65_batching` |
| C66 | No slippage within a ledger | as C63 and C62, for plain requests | plain requests depend on the rates, the indexes of the reserves and the account only, which operations of others do not change (elsewhere_frame, plain_same) | `C66_no_slippage`, `C66_order` |
| C67 | Exactly the backstop calls of depositors that are in order go through | the four calls of depositors of the backstop with emissions and tokens | inversion of each call for the only-if; the reachable invariants of the backstop (shares, queues, funds, emission indexes) exclude every error but overflow for the if | `C67_only_if`, `C67_accepted` |
| C68 | Exactly the management calls that are in order go through | the eight calls that manage a pool | inversion of each call, and its evaluation from the plan; reachable invariants of the reserve list and the interest accrual (C44, C52) exclude the other errors | `C68_only_if`, `C68_accepted` |
| C69 | Exactly the calls of the emitter and the factory that are in order go through | the emitter, the drop of the backstop, the factory | inversion of each call; induction on the list of payments (mints_iff) for when they can be made; the reachable invariant that the last distribution is in the past | `C69_emitter_only_if`, `C69_emitter_accepted`, `C69_factory` |
| C70 | Claims of backstop emissions cannot be blocked | backstop claim, the emission indexes of its pools, the deposit of what was claimed | error analysis of both loops: with the reachable invariants every step but the i128 checks and the payment succeeds; what is paid is what the specification Claimable says; C55 for the funds | `C70_claim_fails_only`, `C70_claim_funded` |
| C71 | Exactly the gulps of emissions that are in order go through | backstop gulp with the fold over the reward zone, pool gulp with the fold over the split | error analysis of both folds: shares, indexes and clocks of a reachable state keep every subtraction, conversion and division defined; only range checks are left; the outcome by induction over the split | `C71_backstop_only_if`, `C71_backstop_accepted`, `C71_pool_only_if`, `C71_pool_accepted`, `C71_gulp_without_split` |
| C72 | Exactly the liquidation auctions that have terms can be created | creation of liquidation auctions with the quote, the removal of the offered positions from a copy of the account, and both health checks | inversion for one direction; for the other an error analysis of the quote, of the loops over lot and bid (with a simulation argument, since the cache has loaded the reserves without marking them for storage) and of the second health computation | `C72_only_if`, `C72_determined`, `C72_accepted` |
| C73 | Exactly the administrative calls of the backstop that are in order go through | initialize, add_reward, update_tkn_val, and the direct calls of draw, donate and gulp_pool_emissions | inversion and construction of the run, with the exact condition under which the valuation of a backstop succeeds; the reserved calls by the invariant that only registered pools hold anything in the backstop | `C73_manage`, `C73_direct` |
| C74 | Whoever stays away loses nothing | the whole system, all operations | induction over the history: frame of the positions for accounts that do not sign (C29), an account without debt makes the liquidation quote divide by zero, submits that name a missing auction fail, growth of the rates (C05) and of the share price (C33) | `C74_lender`, `C74_depositor` |
| C75 | Positions and auctions of a pool can be followed from its events | all events of all entry points (`Model/Events.lean`) on top of the whole system | induction over the history; one operation is followed request by request inside a submit (`Lemmas/Follow.lean`), fills by the terms of C16, bad debt by the shares listed in the events, and all other operations by frames | `C75_every_history_has_a_log`, `C75_follow`, `C75_auctions_on`, `C75_events_determine` |
| C76 | The balances of the backstop can be followed from the events | all events of all entry points (`Model/Events.lean`) on top of the whole system | induction over the history; the backstop's own operations one by one, draws and donations inside submits request by request, all other pool calls by the frame of the backstop | `C76_follow`, `C76_events_determine`, `C76_tokens_add_up` |
| C77 | The events tell the truth about the tokens of a pool | all events of all entry points (`Model/Events.lean`) on top of the whole system with its token ledgers | request by request inside a submit, then induction over the history; all other operations by frame lemmas for the pool's wallet | `C77_submit`, `C77_at_least`, `C77_exactly` |
| C78 | How fast debts grow | accrual of interest on top of all operations of the pool | the exact curve (C47) bounds every accrual by simple interest, Bernoulli's inequality turns it into compounding, induction over the history; the lower bound is the rounding up of the accrued ratio | `C78_at_most`, `C78_at_least` |
| C79 | Tokens are moved, not made | all token movements of all contracts and of outsiders; Comet's answer to a deposit is an arbitrary function | every operation is decomposed into transfers and mints, each of which changes finitely many balances by a known sum; induction over the history | `C79_step`, `C79_supply`, `C79_history`, `C79_blnd` |
| C80 | The management of the protocol can be followed from the events | all events of all entry points, with all operations of all contracts | every operation and its events keep the notes of the observer right (C68, C73 give the exact effect of managing calls, frame lemmas that of all others); induction over the history | `C80_total`, `C80_pool`, `C80_new_pool`, `C80_system` |
| C81 | Auctions, queued changes and the drop list are not lost before their time | the time to live of all entries in temporary storage (`Model/Ttl.lean`), on top of all operations of all contracts | an entry that was just written lives at least for the threshold and its time to live never becomes shorter; induction over the history with C19, C43 and the exact changes of queued reserves and of the drop list | `C81_auction`, `C81_auction_since_start`, `C81_interest_blocked`, `C81_queued`, `C81_drop_list`, `C81_drop_list_gone` |
| C82 | Cutting a fill into pieces gains the filler nothing | submits with any number of fill requests of one auction, from any reachable state; `leftOver` is the exact product of what the percentages leave over | from the full effect of a submit (C45) one extracts the sequence of fills at one age; by induction what is left of the bid (lot) is at most (at least) the exact fraction, and what was paid at least (at most) the part due of what was taken over; the single fill is the smallest (largest) integer with that property | `C82_liquidation`, `C82_bad_debt`, `C82_interest` |
| C83 | What rounding of the emission indices can take away | all operations of all contracts; `Updates` counts the operations that update the recorded emission data | C25 gives every change of an index exactly, also when a schedule is restarted (then nothing is left due); induction over the history; the starved case uses C50 and C51 for what users can claim | `C83_pool_index_bound`, `C83_backstop_index_bound`, `C83_pool_starved`, `C83_anyone_can_starve`, `C83_backstop_starved` |
| C84 | Tokens sent to an account harm nobody and change nothing but what it can pay | all operations of all contracts, their return values and events | a two-directional simulation between the two states, for every function that reads or moves tokens and then for every entry point; induction over the history | `C84_no_harm`, `C84_same_events`, `C84_only_funds`, `C84_history`, `C84_sending_is_burning`, `C84_minting` |
| C85 | How far an oracle reaches | all operations of all contracts, their return values and events | a simulation between the two states for every function and entry point (an equality of results, errors included); the reserves loaded by the health check do not depend on prices | `C85_independent`, `C85_same_events`, `C85_history`, `C85_no_debt`, `C85_submit`, `C85_creation` |
| C86 | What rounding can leave in a pool | all operations of all contracts, at the level of reserve data, balances and positions | bounds for accrual by the defining inequalities of the roundings; for submits an induction over the refined run of C45 of the leftover of the books; for the rest the frame of reserve data and of the pool's balances | `C86_step`, `C86_history`, `C86_ledger` |
| C87 | What happens inside another pool does not matter | all operations of all contracts with results and events | a simulation of every function of the model between a state and the state with other contents of q (Lemmas/Isol, IsolPool, IsolStep), as for C85 | `C87_independent`, `C87_same_events`, `C87_history`, `C87_private` |
| C88 | No group of accounts gets richer within a ledger | all operations of all contracts | one request: the effect on the account of the sender and on the books of all accounts (FullRun) at fixed prices, with the rounding of each conversion; a submit: induction over its requests, the sum over the group changes by at most what the submit moves in tokens; a step: frames for all other operations; a history: induction, the prices stay by C63 | `C88_no_free_lunch`, `C88_round_trip` |
| C89 | A pool does not lend out more than it has | all operations of all contracts | from C86 and the fact that a balance is never negative | `C89_lent`, `C89_rounding` |
| C90 | Signatures decide whether a call goes through, never what it does | all operations of all contracts, their return values and events | the only place where signatures are looked at inside of a call is the donation in the fill of an interest auction, which asks the sender of the submit, who has signed, and the pool, which calls (induction over the requests); everything else by cases of the call | `C90_same`, `C90_needed`, `C90_outcome` |
| C91 | No group of accounts gains by trading with the backstop | the backstop's deposits, withdrawals and queues; all other operations through the hypothesis that they give the group nothing | a potential: the group's part of the tokens, or all of them if nobody has shares, plus what is in the wallets; a deposit and a withdrawal do not increase it because shares are rounded down and tokens are rounded down (one inequality covers both) | `C91_no_gain`, `C91_round_trip`, `C91_others` |
| C92 | Stored auctions are about what their type says | auctions: creation, fills, deletion, expiry; all other operations | invariant over all operations: the terms of C49 and C72 at creation, the fills of C45's specification keep it (what is not listed stays unlisted), and reserves, backstop address and backstop token never change (C23, C28) | `C92_contents`, `C92_amounts` |
| C93 | The value of backstop tokens is that of the last refresh, whoever made it | the record, every call that could write it, Comet as an account whose tokens and supply change in any way | frame of every call on the record, induction on the history that leads to the state; the concrete history is evaluated by the kernel | `C93_refresh`, `C93_only_refresh`, `C93_last_refresh`, `C93_spot_value` |
| C94 | The price of backstop shares cannot be inflated by depositors | the balances of the backstop of a pool and every call that changes them | invariant of all operations by induction on the history; the roundings of deposits, claims and withdrawals favour the other side | `C94_step`, `C94_at_most_par`, `C94_from_genesis`, `C94_deposit` |
| C95 | The margin of safety of a loan | the health check, reserves and oracle; values in the statement are rational numbers | each rounding of the health check bounds the exact rational value from the safe side; sums over the positions | `C95_margin`, `C95_after_submit`, `C95_solvent`, `C95_prices` |
| C96 | The capital of a pool's backstop is committed for 21 days | the balances and queues of the backstop and every call that changes them | C32 (lock of one depositor) summed over all depositors, C30 (totals are sums) and C33 (share price) composed along the history | `C96_shares`, `C96_committed` |
| C97 | The bonus of a liquidation | the creation of liquidation auctions, the health factor and the oracle; values in the statement are rational numbers | from the exact terms of C18: the ratio of the average factors is between 0 and 1, so the incentive is between 0 and a half; each rounding is bounded by the value of a share and a unit | `C97_bonus` |
| C98 | A healthy account stays healthy within a ledger, whatever it does | all operations of the system; the history relation is CalmFor of Verif/Spec/Calm.lean over ForeignTo of Verif/Spec/SameLedger.lean | invariant: the account has at least the collateral and at most the debts of healthy positions; unchecked requests only add collateral and remove debt, checked ones establish health anew; the valuation is monotone | `C98_submit_keeps_health`, `C98_not_liquidated` |
| C99 | How long a borrower has | all operations of the system; the specification is Verif/Spec/Grace.lean over the valuation of Verif/Spec/Health.lean and NormalUse of Verif/Spec/Growth.lean | bound of the debt share price at the end by that of the last accrual before the start (C78 for the stored rate, C47 for the interest not stored yet), then a bound of the rounded valuation item by item, and sums over the reserves; a new reserve adds nothing | `C99_shares_keep`, `C99_not_liquidated`, `C99_solvent` |
| C100 | What a loan costs and what a deposit returns | all operations of the system between two submits of one request each | C03 and C04 for the two submits, C78 for the history in between; the submits store the interest of their reserve, so the exponent is the time between them | `C100_loan`, `C100_deposit` |
| C101 | Nobody earns more than his share of the emissions | all operations of the system; what is paid is counted by the ghost counter of the pool that C50_claim_exact ties to the BLND transferred | the exact rational entitlement of a user never grows by more than his balance times the growth of the index, through the small steps of an operation, because his record is brought up to the index whenever his balance changes; sum over the accounts, induction over the history, C25 for the growth of the index; through restarts, every step gives out at most what it takes from the unemitted rest of the schedule plus the new allotment (Lemmas/Stream) | `C101_share`, `C101_step`, `C101_any_schedule` |
| C102 | No backstop depositor earns more than his share of the emissions | all operations of the system; what is paid is counted by the ghost counter of the backstop that C51_claim_exact ties to the BLND transferred | the exact rational entitlement of a depositor never grows by more than his unqueued shares times the growth of the index, by cases on the operation; sum over the accounts, induction over the history, C25 for the growth of the index; through restarts, every step gives out at most what it takes from the unemitted rest of the schedule plus the new allotment of C37 | `C102_share`, `C102_step`, `C102_credited`, `C102_any_schedule` |
| C103 | Whoever holds his share of a reserve token earns his share of its emissions | all operations of the system; what is paid is counted by the ghost counter of the pool that C50_claim_exact ties to the BLND transferred | through the small steps of an operation the exact rational entitlement grows by at least the balance times the growth of the index less one unit, and by no less if the record stays as it is; the index grows by at least the quotient of C25 less one; induction over the history | `C103_fair_share` |
| C104 | Whoever holds his share of a backstop deposit earns his share of its emissions | all operations of the system; what is paid is counted by the ghost counter of the backstop that C51_claim_exact ties to the BLND transferred | by cases on the operation the exact rational entitlement at the new index falls by less than one unit, and not at all if the record stays as it is; a credited claim only adds shares; the index grows by at least the quotient of C25 less one; induction over the history | `C104_fair_share` |

## Axioms per theorem
Printed with `#print axioms` for each of the 320 theorems named in MANIFEST.json:
* `propext`, `Quot.sound` only: `C07_accrual_idempotent`, `C14_above_one`, `C16_percentage_wraps`, `C17_created`, `C18_debt_free_account_is_liquidated`, `C19_no_second`, `C19_error`, `C27_admin_auth`, `C32_queue`, `C35_draw_entry`, `C38_fails`, `C41_one`, `C49_duplicate_assets`, `C53_same_effects`, `C53_update_status`, `C53_gulp`, `C53_new_auction`, `C53_queue`, `C53_withdraw`, `C53_distribute`, `C55_fails_after_return_swap`, `C56_lapse_blocks_claims`, `C56_fails_after_lapsed_gulp`, `C58_repayment_blocks_fill`, `C63_take_rate_is_retroactive`.
* `propext`, `Classical.choice`, `Quot.sound`: all others.
No theorem depends on any other axiom.
