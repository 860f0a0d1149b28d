{"id": "C01", "title": "Share totals equal the sum of user positions", "statement": "In every pool, for every reserve, the total of outstanding debt shares (d_supply) equals the sum over all users of their liabilities in that reserve, and the total of supply shares (b_supply) equals the sum over all users of collateral plus non-collateral supply.", "quantifier": "every sequence of transactions, by any users, in any order, with any amounts, starting from an un-initialized deployment", "why_tests_cant": "A missed update on any one of the ten request types, auction fills or bad debt paths, in any interleaving, breaks it; tests only visit a few paths.", "anchors": ["pool/src/pool/user.rs: User::add_liabilities, remove_collateral, rm_positions, add_positions", "pool/src/pool/submit.rs: execute_submit", "pool/src/pool/bad_debt.rs"]}
{"id": "C02", "title": "Pool solvency", "statement": "For every reserve of a pool, the tokens the pool holds plus the outstanding debt are at least what suppliers can redeem plus the interest credited to the backstop, except for the value of debt that was written off as bad debt. That value starts at zero and grows only in a submit one of whose requests fills a bad debt auction of the pool and leaves the backstop without debt and with under 0.00003 percent of its minimum size, by exactly the value (rounded up) of the debt shares this request takes from the backstop and does not hand to the filler; so as long as no bad debt auction of the pool is filled there is no exception (the credit is counted as it is: it can be negative after an interest auction sold more than there was). The other side, as a concrete history: a write-off lowers nobody's shares, so those who withdraw first are paid in full and the last one cannot withdraw what his shares are worth.", "quantifier": "every sequence of transactions, by any users, in any order, with any amounts, starting from an un-initialized deployment", "why_tests_cant": "Rounding and accrual errors accumulate over unbounded histories of arbitrary amounts.", "anchors": ["pool/src/pool/reserve.rs: Reserve::load", "pool/src/pool/actions.rs: build_actions_from_request", "pool/src/pool/submit.rs"]}
{"id": "C03", "title": "No rounding profit from supply and withdraw", "statement": "Supplying an amount and withdrawing the shares received, without interest in between, never returns more tokens than were supplied; withdrawing burns at least as many shares as the value paid out.", "quantifier": "all amounts, rates and reserve states", "why_tests_cant": "off-by-one rounding depends on exact remainders over a 128 bit domain", "anchors": ["pool/src/pool/actions.rs", "pool/src/pool/reserve.rs: to_b_token_up, to_b_token_down, to_asset_from_b_token"]}
{"id": "C04", "title": "No rounding profit from borrow and repay", "statement": "Borrowing an amount mints debt shares worth at least that amount; repaying an amount cancels debt shares worth at most that amount; a repayment larger than the debt is refunded exactly down to the value of the debt.", "quantifier": "all amounts, rates and reserve states", "why_tests_cant": "off-by-one rounding depends on exact remainders over a 128 bit domain", "anchors": ["pool/src/pool/actions.rs", "pool/src/pool/reserve.rs: to_d_token_up, to_d_token_down, to_asset_from_d_token"]}
{"id": "C05", "title": "Debt and supply share values never fall", "statement": "The value of a debt share (d_rate) and of a supply share (b_rate) of a reserve never decreases, over any history.", "quantifier": "every sequence of transactions, by any users, in any order, with any amounts, starting from an un-initialized deployment", "why_tests_cant": "a decrease would need a particular combination of utilization, elapsed time, rate modifier and backstop rate", "anchors": ["pool/src/pool/reserve.rs: Reserve::load", "pool/src/pool/interest.rs: calc_accrual"]}
{"id": "C06", "title": "Interest rate modifier stays bounded", "statement": "The interest rate modifier of every reserve stays between 0.1 and 10 over every history.", "quantifier": "every sequence of transactions, by any users, in any order, with any amounts, starting from an un-initialized deployment", "why_tests_cant": "depends on unbounded elapsed time and repeated updates", "anchors": ["pool/src/pool/interest.rs: calc_accrual"]}
{"id": "C07", "title": "Accrual is at least one and idempotent in a ledger", "statement": "The loan accrual factor is at least 1 for any elapsed time; a second accrual at the same timestamp changes nothing; accrual advances the reserve's last update time to the ledger time.", "quantifier": "all reserve states, configurations and timestamps", "why_tests_cant": "all 128 bit inputs", "anchors": ["pool/src/pool/interest.rs: calc_accrual", "pool/src/pool/reserve.rs: Reserve::load"]}
{"id": "C08", "title": "Interest rate is monotone in utilization", "statement": "For a valid reserve configuration and a fixed rate modifier the interest rate is non-decreasing in utilization, including across the two kinks of the curve.", "quantifier": "all valid reserve configurations, rate modifiers and pairs of utilizations", "why_tests_cant": "continuity at the kinks with integer rounding up must hold for every parameter choice", "anchors": ["pool/src/pool/interest.rs: calc_accrual"]}
{"id": "C09", "title": "Health check after risky requests", "statement": "After any submit containing a borrow or a withdrawal of collateral (or a fill of a liquidation or bad debt auction, or a liquidation cancel) after which the account still has liabilities, its risk adjusted collateral is at least 1.00001 times its risk adjusted liabilities at fresh oracle prices (at least 1 times, if the oracle has fewer than five decimals); otherwise the whole transaction reverts. Prices are assumed non-negative.", "quantifier": "all request lists, positions, prices and reserve states", "why_tests_cant": "request lists are unbounded and interact through the shared reserve cache", "anchors": ["pool/src/pool/submit.rs: execute_submit", "pool/src/pool/health_factor.rs", "pool/src/pool/actions.rs"]}
{"id": "C10", "title": "A submit touches only the caller's account, the liquidated account and the backstop", "statement": "A submit changes the positions of no account other than `from`, the accounts named in auction fill requests, and the backstop.", "quantifier": "all request lists, all third-party accounts", "why_tests_cant": "non-interference for every third party", "anchors": ["pool/src/pool/submit.rs", "pool/src/pool/actions.rs", "pool/src/auctions/auction.rs: fill"]}
{"id": "C11", "title": "Status gates requests", "statement": "While a pool is on ice no borrow and no liquidation cancel succeeds; while it is frozen additionally no supply succeeds; withdrawals, repayments and auction fills are never blocked by the status.", "quantifier": "all states and request lists", "why_tests_cant": "every position of a request in a list of any length", "anchors": ["pool/src/pool/pool.rs: require_action_allowed", "pool/src/pool/actions.rs"]}
{"id": "C12", "title": "Status transition table", "statement": "The permissionless status update and the admin status setter move the pool only along the documented table, as a function of the backstop's queued-for-withdrawal share and of the backstop's deposit threshold; a pool in setup can only leave it through the admin; an admin frozen pool can only be changed by the admin. A second update right after the first changes nothing, except that a pool the admin had set active, of whose backstop at least 60 percent is queued, goes on ice with the first and is frozen with the second; a third one never changes anything.", "quantifier": "all statuses, all backstop balances", "why_tests_cant": "thresholds over 128 bit balances", "anchors": ["pool/src/pool/status.rs"]}
{"id": "C13", "title": "Maximum number of positions", "statement": "A submit that increases the number of collateral plus liability positions of the account leaves at most max_positions of them; a submit of supplies, withdrawals, repayments, interest auction fills and liquidation cancels only is never rejected because of that bound.", "quantifier": "all request lists and states", "why_tests_cant": "request lists of any length", "anchors": ["pool/src/pool/pool.rs: require_under_max", "pool/src/pool/submit.rs"]}
{"id": "C14", "title": "Utilization cap at borrow", "statement": "Right after each borrow request the reserve's utilization is at most its max_util; it is still so at the end of the submit unless a later request of the same submit withdraws from that reserve (FINDING: then it can be above).", "quantifier": "all reserve states and amounts", "why_tests_cant": "rounding on 128 bit inputs", "anchors": ["pool/src/pool/actions.rs: Borrow", "pool/src/pool/reserve.rs: require_utilization_below_max"]}
{"id": "C15", "title": "Auction price schedule", "statement": "The lot offered by an auction grows from 0 to 100% over the first 200 ledgers and stays at 100% afterwards; the bid required stays 100% for the first 200 ledgers and falls to 0 over the next 200; hence the terms for a filler are monotone in time.", "quantifier": "all auctions, all block differences and fill percentages", "why_tests_cant": "200/400 boundary and rounding for every amount", "anchors": ["pool/src/auctions/auction.rs: scale_auction"]}
{"id": "C16", "title": "Partial fills conserve the auction", "statement": "A fill of p percent takes the p percent portion of bid (rounded up) and lot (rounded down) and leaves exactly the rest in the stored auction; a 100 percent fill removes the auction; percentages outside 1..100 are rejected, where only the lowest 64 bits of the amount count (FINDING). Over any history all fills of an auction together take at most what it had.", "quantifier": "all auctions, percentages and histories of partial fills", "why_tests_cant": "repeated fills of arbitrary amounts", "anchors": ["pool/src/auctions/auction.rs: scale_auction, fill"]}
{"id": "C17", "title": "An auction cannot be filled before its start block", "statement": "An auction created at ledger n cannot be filled in ledger n: the fill reverts.", "quantifier": "all auctions", "why_tests_cant": "boundary in every state", "anchors": ["pool/src/auctions/auction.rs: scale_auction"]}
{"id": "C18", "title": "Liquidations need an unhealthy account and stay within the close limits", "statement": "A liquidation auction is only created for an account whose risk adjusted collateral does not exceed its risk adjusted liabilities, for 1 to 100 percent; a partial liquidation would leave the account with a health factor between 1.03 and 1.15; a full liquidation takes over all collateral and debt.", "quantifier": "all positions, prices, percentages", "why_tests_cant": "real-valued thresholds with integer rounding", "anchors": ["pool/src/auctions/user_liquidation_auction.rs"]}
{"id": "C19", "title": "One auction at a time", "statement": "For each account and auction type at most one auction exists; creating one while another exists reverts and leaves it unchanged.", "quantifier": "every sequence of transactions, by any users, in any order, with any amounts, starting from an un-initialized deployment", "why_tests_cant": "any interleaving of creations, fills and deletions", "anchors": ["pool/src/auctions/auction.rs: create, create_liquidation", "pool/src/auctions/bad_debt_auction.rs", "pool/src/auctions/backstop_interest_auction.rs"]}
{"id": "C20", "title": "A liquidation is cancelled only when healthy", "statement": "The owner of a liquidation auction can delete it only in a submit after which the account is healthy.", "quantifier": "all request lists and states", "why_tests_cant": "interaction of requests in one submit", "anchors": ["pool/src/pool/actions.rs: DeleteLiquidationAuction", "pool/src/pool/submit.rs"]}
{"id": "C21", "title": "Bad debt moves, it does not vanish, and only from accounts without collateral", "statement": "Transferring bad debt moves exactly the account's liabilities to the backstop, requires that the account has no collateral and has liabilities, and changes no share total; the backstop's own bad debt is written off only in a bad debt auction fill after which its deposits for the pool have a product constant under 0.00003 percent of the required one.", "quantifier": "all positions", "why_tests_cant": "sums over any number of reserves", "anchors": ["pool/src/pool/bad_debt.rs"]}
{"id": "C22", "title": "Reserve changes are timelocked", "statement": "A reserve of a pool can be added or re-configured only with parameters that were queued by the admin, not cancelled since, and either queued at least 7 days earlier or queued while the pool was in setup.", "quantifier": "every sequence of transactions, by any users, in any order, with any amounts, starting from an un-initialized deployment", "why_tests_cant": "time and interleaving of queue, cancel and set over any history", "anchors": ["pool/src/pool/config.rs: execute_queue_set_reserve, execute_set_reserve"]}
{"id": "C23", "title": "Reserve configuration stays valid and identity is stable", "statement": "Every configured reserve satisfies the documented parameter bounds at all times; its index never changes and is its position in the reserve list; decimals never change; the list never shrinks, has no duplicates and at most 32 entries.", "quantifier": "every sequence of transactions, by any users, in any order, with any amounts, starting from an un-initialized deployment", "why_tests_cant": "invariant over every history", "anchors": ["pool/src/pool/config.rs: require_valid_reserve_metadata, initialize_reserve"]}
{"id": "C24", "title": "Pool emission shares never exceed 100 percent", "statement": "Whenever the admin sets the pool emission split, each entry names a listed reserve and its debt or supply token, and the total is at most 100%; an invalid split reverts.", "quantifier": "all split lists", "why_tests_cant": "lists of any length", "anchors": ["pool/src/emissions/manager.rs: set_pool_emissions"]}
{"id": "C25", "title": "Emission indexes only grow", "statement": "The emission index of every reserve token and of every backstop pool never decreases. Each change of it, by whatever operation, is what was emitted since the last update, up to now but not after the expiration, divided by the supply before the operation and rounded down; the supply never changes while anything is due that has not been distributed (unless there was no supply), and a restart of the schedule leaves nothing due.", "quantifier": "every sequence of transactions, by any users, in any order, with any amounts, starting from an un-initialized deployment", "why_tests_cant": "over any history", "anchors": ["pool/src/emissions/distributor.rs", "backstop/src/emissions/distributor.rs"]}
{"id": "C26", "title": "Users are never paid more pool emissions than were distributed", "statement": "For each reserve token and every set of users, what was ever paid to users for holding it plus what they can still claim is at most what the pool ever received for it. What was paid starts at zero and changes only by claims at the pool, by exactly the BLND that leaves the backstop for the receivers; what was received starts at zero and changes only when the pool gulps emissions.", "quantifier": "every sequence of transactions, by any users, in any order, with any amounts, starting from an un-initialized deployment", "why_tests_cant": "sum over all users with floor rounding over any history", "anchors": ["pool/src/emissions/distributor.rs"]}
{"id": "C27", "title": "Admin functions need the admin", "statement": "Every pool function that changes admin, configuration, reserves, emissions split or status (admin version) succeeds only when the current admin authorized it; set_admin also needs the new admin.", "quantifier": "all calls and all authorization sets", "why_tests_cant": "for every caller", "anchors": ["pool/src/contract.rs"]}
{"id": "C28", "title": "Initialization happens once", "statement": "Each of the four contracts can be initialized only once; the addresses fixed at initialization never change afterwards.", "quantifier": "every sequence of transactions, by any users, in any order, with any amounts, starting from an un-initialized deployment", "why_tests_cant": "over any history", "anchors": ["pool/src/pool/config.rs: execute_initialize", "backstop/src/contract.rs", "emitter/src/contract.rs", "pool-factory/src/pool_factory.rs"]}
{"id": "C29", "title": "No one can take tokens or positions without authorization", "statement": "A pool submit succeeds only if `from` authorized it (and `spender` when tokens are pulled from it); claims of emissions only if `from` authorized; backstop deposits, queueing and withdrawals only if the owner authorized.", "quantifier": "all calls and authorization sets", "why_tests_cant": "for every caller", "anchors": ["pool/src/contract.rs: submit, claim", "backstop/src/contract.rs"]}
{"id": "C30", "title": "Backstop share accounting", "statement": "For every pool, the backstop's total shares equal the sum over users of their shares plus their queued shares, and the total queued equals the sum of all queue entries; nothing is ever negative.", "quantifier": "every sequence of transactions, by any users, in any order, with any amounts, starting from an un-initialized deployment", "why_tests_cant": "sum over users and queue entries over any history", "anchors": ["backstop/src/backstop/pool.rs", "backstop/src/backstop/user.rs"]}
{"id": "C31", "title": "Backstop is fully funded", "statement": "The LP tokens held by the backstop are at least the sum over all pools of the deposited tokens it reports.", "quantifier": "every sequence of transactions, by any users, in any order, with any amounts, starting from an un-initialized deployment, in which the backstop was not set up with BLND as its LP token", "why_tests_cant": "over any history of deposits, withdrawals, draws, donations and claims", "anchors": ["backstop/src/backstop/fund_management.rs", "backstop/src/backstop/deposit.rs", "backstop/src/backstop/withdrawal.rs", "backstop/src/emissions/claim.rs"]}
{"id": "C32", "title": "21 day withdrawal queue", "statement": "Backstop shares leave only through the queue: a withdrawal consumes entries in FIFO order, only entries queued at least 21 days ago; dequeueing consumes entries in FIFO order as well and changes no totals; a user has at most 21 entries per pool. So dequeueing does not undo queueing (a concrete history): whoever queues some more and dequeues as much again has exchanged shares that could be withdrawn at once for shares that have to wait 21 days.", "quantifier": "every sequence of transactions, by any users, in any order, with any amounts, starting from an un-initialized deployment", "why_tests_cant": "queues of any content; time boundaries", "anchors": ["backstop/src/backstop/user.rs", "backstop/src/backstop/withdrawal.rs"]}
{"id": "C33", "title": "Backstop share price never falls except by draws", "statement": "Deposit, withdraw and donate never decrease the tokens-per-share of a pool; only a draw by the pool does.", "quantifier": "all balances and amounts", "why_tests_cant": "rounding over 128 bit inputs", "anchors": ["backstop/src/backstop/pool.rs: convert_to_shares, convert_to_tokens"]}
{"id": "C34", "title": "No rounding profit from backstop deposit and withdrawal", "statement": "Depositing tokens and converting the shares back never yields more tokens than deposited, unless the pool has backstop tokens but no shares (FINDING: an interest auction that is filled when nobody holds shares pays the next depositor).", "quantifier": "all balances and amounts", "why_tests_cant": "rounding over 128 bit inputs", "anchors": ["backstop/src/backstop/deposit.rs", "backstop/src/backstop/withdrawal.rs"]}
{"id": "C35", "title": "Only pools can draw, only with their own authorization", "statement": "A draw removes tokens only from the calling pool's balance, only if the pool authorized it and never below zero; deposits and donations only go to pools deployed by the factory.", "quantifier": "all calls", "why_tests_cant": "for every caller and balance", "anchors": ["backstop/src/contract.rs: draw, donate", "backstop/src/backstop/fund_management.rs"]}
{"id": "C36", "title": "Reward zone integrity", "statement": "The reward zone never contains a pool twice, never exceeds its time-dependent maximum size, only accepts pools above the backstop threshold, and a full zone only replaces a pool that has a smaller backstop balance.", "quantifier": "every sequence of transactions, by any users, in any order, with any amounts, starting from an un-initialized deployment", "why_tests_cant": "over any history", "anchors": ["backstop/src/emissions/manager.rs: add_to_reward_zone"]}
{"id": "C37", "title": "Emissions are split, not created, by the backstop", "statement": "A gulp of new emissions splits at most the new amount: at most 70% to backstop depositors and at most 30% to pools, in proportion to the pools' unqueued backstop balance.", "quantifier": "all reward zones and balances", "why_tests_cant": "rounding in lists of any length", "anchors": ["backstop/src/emissions/manager.rs: gulp_emissions"]}
{"id": "C38", "title": "Backstop depositors are never credited more than distributed", "statement": "In every history in which each backstop claim is credited to the claimant, what was ever paid out to a pool's backstop depositors plus what they are still entitled to is at most what was ever allotted to them. (What was paid to and allotted to a pool's depositors starts at zero; the first changes only by claims, by exactly the BLND that leaves the backstop, the second only when the backstop gulps emissions.) FINDING: without that restriction it is false: a claim paid out to another address credits that address with shares before its emissions are updated, and it is then paid for time before it had them.", "quantifier": "every sequence of transactions in which claims are credited to the claimant (and a concrete counterexample otherwise), by any users, in any order, with any amounts, starting from an un-initialized deployment", "why_tests_cant": "sum over all users with floor rounding over any history; FAILS for claim with a different recipient: see the finding", "anchors": ["backstop/src/emissions/distributor.rs", "backstop/src/emissions/claim.rs"]}
{"id": "C39", "title": "The emitter mints exactly one token per second", "statement": "For any history the total minted by distribute to a backstop equals 1.0000000 token per second of the time since it became the backstop, independently of how often distribute is called.", "quantifier": "every sequence of transactions, by any users, in any order, with any amounts, starting from an un-initialized deployment", "why_tests_cant": "any sequence of distribute and swap calls", "anchors": ["emitter/src/emitter.rs: execute_distribute"]}
{"id": "C40", "title": "One drop per backstop, at most 50 million", "statement": "The emitter's drop can be executed at most once for each backstop address, only by the current backstop, and mints at most 50 million tokens.", "quantifier": "every sequence of transactions, by any users, in any order, with any amounts, starting from an un-initialized deployment", "why_tests_cant": "over any history and recipient list", "anchors": ["emitter/src/emitter.rs: execute_drop"]}
{"id": "C41", "title": "Backstop swap needs 31 days and a larger balance", "statement": "The emitter changes its backstop only through a swap that was queued at least 31 days earlier, whose new backstop held more backstop tokens than the current one both when queued and when executed; at most one swap is queued; it can be cancelled only when the new backstop no longer holds more.", "quantifier": "every sequence of transactions, by any users, in any order, with any amounts, starting from an un-initialized deployment", "why_tests_cant": "time and interleaving over any history", "anchors": ["emitter/src/backstop_manager.rs"]}
{"id": "C42", "title": "Factory registry is exact", "statement": "is_pool is true exactly for the addresses the factory deployed, and each such pool was initialized with the factory's backstop and BLND token and with valid arguments; the registry never forgets a pool.", "quantifier": "every sequence of transactions, by any users, in any order, with any amounts, starting from an un-initialized deployment", "why_tests_cant": "over any history", "anchors": ["pool-factory/src/pool_factory.rs"]}
{"id": "C43", "title": "Interest auctions can become unfillable and then block", "statement": "FINDING: an interest auction not filled within 400 ledgers of its start can never be filled and while it exists no new interest auction can be created (until the ledger drops the temporary entry); a bad debt auction cannot be filled in its first ledger.", "quantifier": "all interest auctions older than 400 ledgers", "why_tests_cant": "needs reasoning about every later state", "anchors": ["pool/src/auctions/backstop_interest_auction.rs: fill_interest_auction", "pool/src/auctions/auction.rs"]}
{"id": "C44", "title": "Queueing all shares of a rewarded pool freezes the backstop", "statement": "FINDING: while all shares of a pool with running emissions are queued for withdrawal, deposits, queueing and dequeueing for it and the gulp of emissions for the whole backstop revert.", "quantifier": "all such states", "why_tests_cant": "division by zero reachable from legitimate calls", "anchors": ["backstop/src/emissions/distributor.rs: update_emission_data"]}
{"id": "C45", "title": "A submit does exactly what its requests are documented to do", "statement": "The positions of all accounts, all auctions, the backstop tokens and interest credit of the pool and all token balances after a successful submit are those obtained by applying the documented effect of each request in turn (supply, withdraw, borrow, repay, the three auction fills, liquidation cancel) and then settling the net transfers between pool, spender and receiver; nothing else changes.", "quantifier": "all reachable states, callers and lists of requests of any length", "why_tests_cant": "all interleavings of ten request types, with netted transfers and cached reserves", "anchors": ["pool/src/pool/submit.rs: execute_submit", "pool/src/pool/actions.rs: build_actions_from_request", "pool/src/auctions/*.rs"]}
{"id": "C46", "title": "Pools are isolated from each other", "statement": "What a pool stores changes only in operations that concern this pool (a call of it, its deployment, the expiry of its own temporary entries); a call of one pool changes nothing that the backstop stores for another pool and its depositors; tokens leave a pool only in a submit to that very pool.", "quantifier": "all reachable states, all operations and callers, all pools other than the one concerned", "why_tests_cant": "unit tests run one pool; an attacker can deploy any number of pools with any configuration against the same backstop", "anchors": ["pool-factory/src/pool_factory.rs: deploy", "backstop/src/contract.rs: draw, donate", "pool/src/contract.rs"]}
{"id": "C47", "title": "Interest accrues by the documented curve", "statement": "Whenever a pool accrues interest, the value of a debt share grows by simple interest for the time since the last accrual at the yearly rate of the three-legged curve (linear up to the target utilization, linear up to 95 percent, linear above, scaled by the rate modifier except for the slope of the last leg), up to an explicit bound on rounding; the rate modifier moves by reactivity times distance from the target utilization times time, and stays within 0.1 and 10; with no debt, no deposits or no time passed only the time of the last accrual changes. Share values and modifier change in no other way, in any operation; a change of the rate parameters may reset the modifier to 1.", "quantifier": "all reachable states, pools, reserves and operations; all parameters within the documented bounds", "why_tests_cant": "the curve has three legs with kinks, six roundings and any utilization, modifier and time span; tests sample a few points", "anchors": ["pool/src/pool/interest.rs: calc_accrual", "pool/src/pool/reserve.rs: Reserve::load", "pool/src/pool/config.rs: initialize_reserve"]}
{"id": "C48", "title": "Interest is split without loss", "statement": "Over any accrual the growth in value of all supply shares plus the growth of the interest credited to the backstop is at most the growth of the total debt, and falls short of it by at most the rounding of two divisions (1 + total shares / 10^9 base units); the backstop gets its take rate of the growth, rounded down.", "quantifier": "all reachable states, pools and reserves", "why_tests_cant": "rounding differences over all share totals, rates and time spans", "anchors": ["pool/src/pool/reserve.rs: Reserve::load"]}
{"id": "C49", "title": "Terms of bad debt and interest auctions", "statement": "A bad debt auction is created only if none is open, starts at the next ledger, asks for exactly all debt of the backstop in the pool and offers backstop tokens worth 140 percent of that debt at the oracle prices, or all tokens the pool has if that is less. An interest auction is created only if none is open and the accrued interest of the backstop in the named reserves is worth more than 200 units of the base asset; it offers exactly that interest and asks for backstop tokens worth 140 percent of it. All roundings are specified.", "quantifier": "all reachable states, pools, asset lists, prices, creators", "why_tests_cant": "terms depend on accrued interest, prices, decimals, the backstop and the list of assets; tests sample a few", "anchors": ["pool/src/auctions/bad_debt_auction.rs: create_bad_debt_auction_data", "pool/src/auctions/backstop_interest_auction.rs: create_interest_auction_data"]}
{"id": "C50", "title": "Pool emissions accrue exactly pro rata, and a claim pays exactly that", "statement": "What a user can claim of the emissions of a reserve token is what his record holds plus his balance times the growth of the index since. Through any operation of anyone that is not a claim of his own, what he can claim at the index then reached is exactly what his balance and record from before give: it grows by his balance before the operation times the growth of the index, up to one unit of rounding; only if nobody held the token while emissions ran can it be more. His own claim brings the index of each named token up to date, pays exactly what he can then claim for it, once, from the BLND of the backstop to the named receiver, leaves nothing to claim for those tokens and moves no other balance.", "quantifier": "all reachable states, pools, operations, users, reserve tokens and lists of tokens to claim", "why_tests_cant": "every deposit, withdrawal, loan, repayment, fill, bad debt and claim has to update the right record with the right balance before it changes; tests check a few sequences", "anchors": ["pool/src/emissions/distributor.rs: execute_claim, update_emissions, claim_emissions", "pool/src/pool/user.rs: add_collateral, remove_collateral, add_supply, remove_supply, add_liabilities, remove_liabilities"]}
{"id": "C51", "title": "Backstop emissions accrue exactly pro rata, and a claim pays exactly that", "statement": "What a backstop depositor can claim is what his record holds plus his unqueued shares times the growth of the index since. No operation of anyone, except a claim by him or credited to him, changes it other than through the index, applied to his shares before the operation. His claim brings the index of each named pool up to date and pays exactly that for it, once, in BLND, and leaves nothing to claim there; the LP tokens bought with it are credited to the named pools in proportion to what each paid, and the receiver gets the shares of an ordinary deposit, if no pool is named twice. No other balance, share or pool changes.", "quantifier": "all reachable states, pools, operations, depositors, receivers and lists of pools", "why_tests_cant": "every deposit, queueing, dequeueing, claim and gulp has to update the right record before shares change; tests check a few sequences", "anchors": ["backstop/src/emissions/claim.rs: execute_claim", "backstop/src/emissions/distributor.rs: update_emissions, claim_emissions", "backstop/src/backstop/deposit.rs: execute_deposit", "backstop/src/backstop/withdrawal.rs: execute_queue_withdrawal, execute_dequeue_withdrawal"]}
{"id": "C52", "title": "Exits cannot be blocked", "statement": "A submit that withdraws supplied tokens (or collateral of an account without debts), or repays at least one debt share, fails only because an i128/u32 overflows or because the tokens are missing: the pool holds less than the payout (the lesser of the amount asked for and the worth of the shares), or the spender holds less than offered. In reserves of ordinary size (explicit bounds) no overflow happens, so it succeeds. The status of the pool, the oracle, position limits, other accounts and the admin cannot prevent it.", "quantifier": "all reachable states (any pool status, oracle state, settings, open auctions, history), users, amounts and authorizations", "why_tests_cant": "An exit must stay possible in every state somebody can bring the pool into; tests only try it in a few states, and the overflow bounds range over all amounts and times.", "anchors": ["pool/src/pool/submit.rs: execute_submit", "pool/src/pool/actions.rs: build_actions_from_request", "pool/src/pool/user.rs: remove_supply, remove_collateral, remove_liabilities", "pool/src/pool/reserve.rs: Reserve::load", "pool/src/emissions/distributor.rs: update_emissions", "pool/src/pool/pool.rs: require_action_allowed, require_under_max"]}
{"id": "C53", "title": "Return values tell the truth", "statement": "What an entry point returns is what happened: submit returns the positions that get_positions then shows; set_reserve the index under which the asset is in the reserve list; update_status the stored status; gulp_emissions the BLND by which the allowance of the pool grows; claim (pool and backstop) the BLND that moved; the auction openers the auction get_auction then shows; deposit the shares by which user and pool grow; queue_withdrawal the entry appended to the queue, unlocked 21 days later; withdraw the tokens paid; update_tkn_val the stored values, which are the balances of Comet over its supply; distribute the BLND minted; deploy the address that is_pool then accepts (and did not before). pool_data shows the true tokens, queued share (rounded up, between 0 and 1) and underlying amounts.", "quantifier": "all reachable states, callers, arguments", "why_tests_cant": "Callers act on return values in every state; tests compare a few of them with constants.", "anchors": ["pool/src/contract.rs: submit, set_reserve, update_status, gulp_emissions, claim, new_liquidation_auction, new_bad_debt_auction, new_interest_auction, get_positions, get_auction", "backstop/src/contract.rs: deposit, queue_withdrawal, withdraw, claim, update_tkn_val, user_balance, pool_data", "emitter/src/contract.rs: distribute", "pool-factory/src/pool_factory.rs: deploy, is_pool"]}
{"id": "C54", "title": "Backstop depositors cannot be locked in", "statement": "Shares queued for withdrawal are unlocked 21 days later whatever anybody does in between. A withdrawal succeeds exactly when the caller has that many unlocked shares, they are worth at least one unit of the token and no 128-bit overflow happens: the tokens are always there, and no status, setting, admin or other depositor can prevent it. Queueing succeeds exactly when the caller holds the shares and fewer than 21 entries are queued; dequeueing exactly when that many shares are queued and not all shares of the pool are queued with emissions due (sizes within explicit bounds).", "quantifier": "all reachable states, all histories between queueing and withdrawing, all amounts and sizes up to explicit bounds", "why_tests_cant": "Whether funds can always leave depends on everything anybody may do during 21 days; tests replay a handful of histories.", "anchors": ["backstop/src/backstop/withdrawal.rs: execute_queue_withdrawal, execute_dequeue_withdrawal, execute_withdraw", "backstop/src/backstop/user.rs: queue_shares_for_withdrawal, dequeue_shares_for_withdrawal", "backstop/src/emissions/distributor.rs: update_emissions"]}
{"id": "C55", "title": "The BLND the backstop holds covers all emissions it has promised", "statement": "Whenever every backstop claim is credited to its claimant and the emitter is not swapped back to a backstop it left before, then at every moment the BLND balance of the backstop covers, all at once and for all pools: what all depositors could claim now or at any later time, the emissions waiting to be gulped by pools, the allowances pools have for paying their users, and one token for each second distributed by the emitter and not yet gulped by the backstop.", "quantifier": "all histories without foreign claims and return swaps; any finite set of pools and depositors; any later time", "why_tests_cant": "the promises of three contracts (emitter, backstop, pools) and the index arithmetic of all depositors have to add up over every history", "anchors": ["backstop/src/emissions/manager.rs: gulp_emissions, gulp_pool_emissions", "backstop/src/emissions/claim.rs: execute_claim", "emitter/src/emitter.rs: execute_distribute", "emitter/src/backstop_manager.rs: execute_swap_backstop"]}
{"id": "C56", "title": "Pool users' claims are covered by the pool's allowance and by BLND", "statement": "As long as no pool gulps emissions after its allowance from the backstop has lapsed, then in every pool whose allowance has not lapsed, what all users could claim for all reserve tokens, now or at any later time, is at most the allowance the backstop has given the pool. With the conditions of C55, the BLND balance of the backstop covers, all at once and for all pools, what all pool users and all backstop depositors could claim and the emissions waiting for pools.", "quantifier": "all histories without gulps of lapsed allowances (and, for the second part, without foreign claims and return swaps); any finite sets of pools, reserve tokens and users; any later time", "why_tests_cant": "the emissions of all reserves and users of a pool, and the allowance which is granted per gulp and consumed by claims, have to add up over every history", "anchors": ["backstop/src/emissions/manager.rs: gulp_pool_emissions", "pool/src/emissions/manager.rs: gulp_emissions, update_reserve_emission_config", "pool/src/emissions/distributor.rs: execute_claim"]}
{"id": "C57", "title": "Claims of pool emissions cannot be blocked", "statement": "A claim by a user of his own emissions, for different existing reserve tokens, can fail only because a number leaves the range of i128, or because what he can claim at the up-to-date indexes exceeds the allowance of the pool or the BLND of the backstop; not because of the status of the pool, the oracle, debts, or anything the admin can set. In every history with own backstop claims only, without return swaps and without gulps after a lapse, and while the allowance has not lapsed, a claim of emissions of ordinary size succeeds.", "quantifier": "all reachable states, pools, users, receivers and lists of reserve tokens; all such histories", "why_tests_cant": "that nothing blocks a claim is a statement about every state any history can reach, and needs the solvency of the allowance and of the backstop in each of them", "anchors": ["pool/src/emissions/distributor.rs: execute_claim, claim_emissions", "pool/src/contract.rs: claim"]}
{"id": "C58", "title": "Insolvent accounts can always be liquidated", "statement": "Whenever an account that has collateral owes at least what its collateral is worth (at fresh, non-negative oracle prices, interest accrued) and has no liquidation auction yet, anybody can open an auction of 100 percent of it, whatever the status of the pool, other auctions or the state of the reserves: the call can fail only by arithmetic overflow, and for accounts of ordinary size it succeeds and offers exactly all collateral for exactly all debt. This cannot be extended to all unhealthy accounts: there are reachable states in which an account with liabilities a fifth above its risk adjusted collateral can be liquidated for no percentage at all.", "quantifier": "every reachable state, pool, account, caller; the exception is an explicit reachable state", "why_tests_cant": "liveness: that no state makes the liquidation of an insolvent account impossible, and that for an account no percentage works, quantify over all states and all percentages", "anchors": ["pool/src/auctions/user_liquidation_auction.rs: create_user_liq_auction_data", "pool/src/auctions/auction.rs: create_liquidation", "pool/src/pool/health_factor.rs: PositionData::calculate_from_positions"]}
{"id": "C59", "title": "Exactly the submits that are in order go through", "statement": "A submit of any number of supplies, withdrawals, borrows and repayments (as collateral or not, for any assets, with amounts that may exceed what is there) is accepted exactly when it is in order: each request is permitted by the status of the pool and, at the rates with interest accrued up to now, mints or burns at least one share, repays at most what is owed and pays something; no borrow takes its reserve over its maximum utilization, counting the earlier requests of the same submit; the number of positions is not raised over the maximum; if collateral is withdrawn or something is borrowed, the resulting account has no debt or is healthy; the spender holds the sum of what is paid and the pool, with that, the sum of what is taken out. If it is accepted, the resulting positions and token balances are exactly those. The only other reason for which a submit in order can fail is a number that leaves the range of i128; a submit in order but for the funds fails for lack of tokens.", "quantifier": "every reachable state, pool, sender, spender, receiver and list of plain requests, with non-negative oracle prices", "why_tests_cant": "an exact characterization (both directions) of acceptance over all lists of requests and all states; tests sample single combinations", "anchors": ["pool/src/pool/submit.rs: execute_submit", "pool/src/pool/actions.rs: build_actions_from_request", "pool/src/pool/pool.rs: require_action_allowed, require_under_max", "pool/src/pool/health_factor.rs: PositionData", "pool/src/pool/reserve.rs: require_utilization_below_max"]}
{"id": "C60", "title": "Bad debt can always be moved to the backstop", "statement": "The debt of an account without collateral, other than the account of the backstop, can be moved to the backstop by anybody at any time, whatever the status of the pool, the auctions under way and the oracle: the call can fail only because a number leaves the range of i128, and otherwise the account owes nothing afterwards and the backstop owes exactly that much more of each reserve. No other debt can be moved in this way.", "quantifier": "all reachable states, pools, accounts and callers", "why_tests_cant": "whether some mix of reserves, emissions, interest and positions makes one of the many steps of the transfer revert cannot be settled by trying mixes; bad debt that cannot be moved would stay with the suppliers unnoticed", "anchors": [["pool/src/pool/bad_debt.rs", ["transfer_bad_debt_to_backstop"]], ["pool/src/contract.rs", ["bad_debt"]], ["pool/src/pool/user.rs", ["add_liabilities", "remove_liabilities"]]]}
{"id": "C61", "title": "Exactly the bad debt and interest auctions that have terms can be created", "statement": "Anybody can create a bad debt auction exactly when there is none, the backstop owes something of positive value at fresh prices and the tokens of the backstop have a value; an interest auction for a list of assets exactly when there is none, all of them are reserves of the pool, the interest of the backstop in them is worth more than 200 units at fresh prices and the tokens of the backstop have a value. Apart from arithmetic overflow nothing else (no status, no other auction, no position) can prevent it, and the auction then has exactly the terms of C49.", "quantifier": "all reachable states, pools, callers and lists of assets", "why_tests_cant": "that no further condition prevents an auction, in any state, is a statement about every error path of the creation in every reachable state", "anchors": [["pool/src/auctions/bad_debt_auction.rs", ["create_bad_debt_auction_data"]], ["pool/src/auctions/backstop_interest_auction.rs", ["create_interest_auction_data"]], ["pool/src/contract.rs", ["new_bad_debt_auction", "new_interest_auction"]]]}
{"id": "C62", "title": "Exactly the submits that are in order go through, auctions included", "statement": "A submit of any list of requests of all ten kinds, in any order, is accepted exactly when it is in order: each supply, withdrawal, borrow and repayment has its effect as in C59 on the account as the requests before it left it; each fill is of an auction that exists at that point and has started, of an account other than the sender, for 1 to 100 percent, and what is handed over (collateral, debt, backstop tokens, interest) is there; a deletion has an auction of the sender to delete; no borrow takes the reserve over its maximum utilization; the number of positions of the sender is not raised over the maximum; a sender that took a risk (withdrew collateral, borrowed, filled a liquidation or bad debt auction, or cancelled its own liquidation) has no debt or is healthy at the end; the spender and the pool hold what is paid at the end. If it is accepted, the positions of everybody, the auctions, the backstop tokens and the interest of the pool, and all token balances are exactly those of the plan, which is unique. The only other reason for a submit in order to fail is a number that leaves the range of i128; if only the funds are missing it fails for lack of tokens.", "quantifier": "every reachable state, pool, sender, spender, receiver and list of requests of any kind, with non-negative oracle prices", "why_tests_cant": "requests act on state the earlier requests left (an auction filled twice, collateral supplied before a fill, debt repaid after it); that no combination is refused or accepted wrongly is a statement about all lists in all states", "anchors": ["pool/src/pool/submit.rs: execute_submit", "pool/src/pool/actions.rs: build_actions_from_request", "pool/src/auctions/auction.rs: fill, scale_auction, delete_liquidation", "pool/src/auctions/user_liquidation_auction.rs: fill_user_liq_auction", "pool/src/auctions/bad_debt_auction.rs: fill_bad_debt_auction", "pool/src/auctions/backstop_interest_auction.rs: fill_interest_auction", "pool/src/pool/pool.rs: require_action_allowed, require_under_max"]}
{"id": "C63", "title": "Share prices are fixed within a ledger", "statement": "Within a ledger (while the ledger time stays the same) nothing that anybody does, in any order and any number of times - submits, fills of auctions, bad debt, tokens sent to the pool, emissions, new reserve parameters, new prices, actions in other contracts - changes what a supply share or a debt share of a reserve is worth (with interest up to now), except a new backstop take rate set by the admin, and even that does not change what debt shares are worth.", "quantifier": "all reachable states, all pools and reserves, all histories within a ledger", "why_tests_cant": "share price manipulation (donations, rounding of mints and burns, flash sequences) needs an unusual sequence of calls of any length; tests try a few", "anchors": ["pool/src/pool/reserve.rs: Reserve::load", "pool/src/pool/actions.rs: build_actions_from_request", "pool/src/pool/submit.rs: execute_submit", "pool/src/pool/config.rs: execute_update_pool"]}
{"id": "C64", "title": "Within a ledger nobody else can change the health of an account", "statement": "While the ledger, the oracle prices and the parameters of the pool and its reserves stay the same, nothing that other accounts do changes the positions of an account (other than the backstop), what they are worth with or without risk adjustment, or whether the account is healthy, unless they fill a liquidation of the account that is on offer or move its bad debt. In particular an account whose risk adjusted collateral is worth more than its risk adjusted debt cannot be put up for liquidation in this ledger, whatever sequence of calls others make.", "quantifier": "all reachable states, pools, accounts and all histories of operations of others within a ledger", "why_tests_cant": "an attack would be a sequence of calls of others that pushes an account under water; tests cannot enumerate sequences", "anchors": ["pool/src/pool/health_factor.rs: calculate_from_positions", "pool/src/auctions/user_liquidation_auction.rs: create_user_liq_auction_data", "pool/src/pool/reserve.rs: Reserve::load"]}
{"id": "C65", "title": "Several submits in a ledger do the same as one", "statement": "Any list of requests of all ten kinds has the same effect in one submit and in two submits one after the other in the same ledger with the same accounts, if they go through: all accounts have the same shares, all auctions, the backstop tokens and the interest of the backstop, and all balances of all tokens are the same. There is nothing to gain from splitting or batching requests (rounding included).", "quantifier": "all reachable states, all lists of requests and all ways to split them", "why_tests_cant": "the claim is about all lists of requests and all splits, with roundings in each request", "anchors": ["pool/src/pool/submit.rs: execute_submit", "pool/src/pool/actions.rs: build_actions_from_request"]}
{"id": "C66", "title": "No slippage within a ledger", "statement": "The outcome of a submit of supplies, withdrawals, borrows and repayments does not depend on what others did before it in the same ledger (submits, fills, bad debt, tokens sent to the pool, new prices, new reserve parameters), if it goes through: the account ends up with the same shares and everybody pays and gets the same tokens. In particular the order of such submits of two accounts does not matter.", "quantifier": "all reachable states, accounts, lists of plain requests, and histories of operations of others within a ledger", "why_tests_cant": "front running is a question about all sequences of calls of others", "anchors": ["pool/src/pool/submit.rs: execute_submit", "pool/src/pool/actions.rs: build_actions_from_request", "pool/src/pool/reserve.rs: Reserve::load"]}
{"id": "C67", "title": "Exactly the backstop calls of depositors that are in order go through", "statement": "A deposit, a queueing, a dequeueing or a withdrawal of backstop shares is accepted exactly when it is in order, unless a number leaves the range of i128: a deposit needs a pool of the factory, the tokens, at least one share at the price rounded down, and not all shares queued; queueing needs the shares and one of 21 places in the queue; dequeueing and withdrawing take the oldest entries first, withdrawing only those that are 21 days old and worth at least one token. An accepted call changes exactly the planned amounts: the balance of that pool, of that depositor, the two token balances, and the accrual of their emissions; nothing of anybody else.", "quantifier": "all reachable states, callers, pools and amounts", "why_tests_cant": "exactness in both directions quantifies over every state of the queue, the share price and the emissions, which tests can only sample", "anchors": ["backstop/src/backstop/deposit.rs: execute_deposit", "backstop/src/backstop/withdrawal.rs: execute_queue_withdrawal", "backstop/src/backstop/withdrawal.rs: execute_dequeue_withdrawal", "backstop/src/backstop/withdrawal.rs: execute_withdraw", "backstop/src/backstop/user.rs: UserBalance", "backstop/src/backstop/pool.rs: PoolBalance"]}
{"id": "C68", "title": "Exactly the management calls that are in order go through", "statement": "A change of the admin, of the pool settings, of a queued reserve, of a reserve, of the emission split or of the status is accepted exactly when it is in order (the right authorizations, valid parameters, a change queued long enough, the status permitted by the health of the backstop), and does exactly what it says to the storage of that pool and nothing else anywhere. Only a change of the status can fail for another reason, namely because a number leaves the range of i128.", "quantifier": "all reachable states, pools, callers and arguments", "why_tests_cant": "exactness in both directions quantifies over every state of the pool and its backstop and every argument, and the frame over all of storage", "anchors": ["pool/src/pool/config.rs: execute_queue_set_reserve", "pool/src/pool/config.rs: execute_set_reserve", "pool/src/pool/config.rs: execute_update_pool", "pool/src/pool/status.rs: execute_update_pool_status", "pool/src/pool/status.rs: execute_set_pool_status", "pool/src/emissions/manager.rs: set_pool_emissions", "pool/src/contract.rs: set_admin"]}
{"id": "C69", "title": "Exactly the calls of the emitter and the factory that are in order go through", "statement": "Distribution (by anybody, one token per second since the last one), queueing, cancelling and executing a swap of the backstop, the drop of a backstop, and the set-up of the emitter are accepted exactly when they are in order and the minted amounts keep the balances in the range of i128; they change exactly the planned fields of the emitter, mint exactly the planned amounts, and touch nothing else. The set-up of the factory and the deployment of pools are accepted exactly when they are in order, with exactly the planned effect.", "quantifier": "all reachable states, callers and arguments, all drop lists", "why_tests_cant": "exactness in both directions quantifies over every state and every list of payments, including lists that pay an account several times", "anchors": ["emitter/src/contract.rs: initialize", "emitter/src/emitter.rs: execute_distribute", "emitter/src/emitter.rs: execute_drop", "emitter/src/backstop_manager.rs: execute_queue_swap_backstop", "emitter/src/backstop_manager.rs: execute_cancel_swap_backstop", "emitter/src/backstop_manager.rs: execute_swap_backstop", "pool-factory/src/pool_factory.rs: deploy"]}
{"id": "C70", "title": "Claims of backstop emissions cannot be blocked", "statement": "A claim of backstop emissions by a depositor, for different pools none of which has all its shares queued or has lost all its tokens, to any account, can fail only because a number leaves the range of i128 or because what he can claim in these pools together exceeds the BLND the backstop holds. In histories where every backstop claim is paid into the claimant's own deposit and the emitter never returns to a former backstop, the second does not happen.", "quantifier": "every reachable state, depositor, list of different pools and receiver", "why_tests_cant": "It has to be shown for every state other accounts can bring about; a test tries a few of them.", "anchors": ["backstop/src/emissions/claim.rs: execute_claim", "backstop/src/emissions/distributor.rs: claim_emissions"]}
{"id": "C71", "title": "Exactly the gulps of emissions that are in order go through", "statement": "A gulp of the backstop is accepted exactly when the emitter distributed more than an hour of emissions since the last gulp, some pool of the reward zone has unqueued tokens, and no pool of the zone has all its shares queued while its emissions run; a gulp of a pool exactly when at least one BLND is waiting for it. Anybody can make them. No other state of the reserves, auctions or emission schedules can block them (unless a number leaves the range of its type). A gulp of a pool takes all the waiting BLND and gives every reserve token of the split its part, rounded down, to be emitted over the next seven days with what is left of the running schedule; without a split the BLND is taken and nobody gets it.", "quantifier": "every reachable state before the year 31 billion, every caller, pool, reward zone and split", "why_tests_cant": "acceptance in every state other accounts can bring about, for every size of the reward zone and every split, cannot be sampled", "anchors": ["backstop/src/emissions/manager.rs: gulp_emissions", "backstop/src/emissions/manager.rs: set_backstop_emission_config", "backstop/src/emissions/manager.rs: gulp_pool_emissions", "pool/src/emissions/manager.rs: gulp_emissions", "pool/src/emissions/manager.rs: do_gulp_emissions", "pool/src/emissions/manager.rs: update_reserve_emission_config"]}
{"id": "C72", "title": "Exactly the liquidation auctions that have terms can be created", "statement": "Anybody can create a liquidation auction of n percent of the debt of an account exactly when: n is between 1 and 100, the account is neither the pool nor its backstop and has no liquidation auction, its liabilities are at least its risk adjusted collateral, a positive amount of each of its debts and collaterals is put up, and either n is 100 and the quote covers all of the collateral, or n is less and the health factor of what is left is between 1.03 and 1.15. Nothing else can block it (but a number that leaves the range of its type). The auction is determined by the state, and nothing else changes but the accrual of the account's emissions.", "quantifier": "all reachable states with non-negative prices, accounts and percentages", "why_tests_cant": "exactness in both directions quantifies over all positions, prices, rates and roundings", "anchors": ["pool/src/auctions/user_liquidation_auction.rs: create_user_liq_auction_data", "pool/src/auctions/auction.rs: create_liquidation", "pool/src/pool/health_factor.rs: is_hf_over", "pool/src/pool/health_factor.rs: is_hf_under"]}
{"id": "C73", "title": "Exactly the administrative calls of the backstop that are in order go through", "statement": "Anybody can set up the backstop once the emitter knows it, and only once; add to the reward zone a pool that reaches the minimum size, while there is room, or in place of a pool with a smaller backstop when the zone is full and the last distribution is at most a day old; and update the value of the LP token to its BLND and USDC per share, rounded down. Nothing else can block these calls (but a number that leaves the range of its type) and they change nothing else. Nobody can call draw, donate or gulp_pool_emissions in the place of a pool, except for a draw of nothing, which changes no balance.", "quantifier": "all reachable states, callers and arguments", "why_tests_cant": "exactness in both directions quantifies over all states of the zone, sizes and values", "anchors": ["backstop/src/contract.rs: initialize", "backstop/src/emissions/manager.rs: add_to_reward_zone", "backstop/src/backstop/fund_management.rs: execute_update_comet_token_value", "backstop/src/backstop/fund_management.rs: execute_draw", "backstop/src/backstop/fund_management.rs: execute_donate", "backstop/src/emissions/manager.rs: gulp_pool_emissions"]}
{"id": "C74", "title": "Whoever stays away loses nothing", "statement": "A lender that owes nothing, is not up for liquidation and signs nothing keeps its positions and emission records whatever everybody else does and however long it takes; no liquidation auction of it can be created, its debt cannot be moved anywhere, and each of its supply and collateral positions is worth at least as many tokens as before. A depositor of a pool's backstop that signs nothing keeps its shares and its withdrawal queue, and all of its shares together are worth at least as many backstop tokens as before, as long as no bad debt auction of the pool is filled.", "quantifier": "all reachable states, all accounts, and all histories of any length made of operations the account did not sign", "why_tests_cant": "ranges over all histories of other users, admins, oracles and ledgers", "anchors": ["pool/src/pool/actions.rs: build_actions_from_request", "pool/src/auctions/user_liquidation_auction.rs: create_user_liq_auction_data", "pool/src/pool/bad_debt.rs: transfer_bad_debt_to_backstop", "pool/src/pool/reserve.rs: Reserve::load", "backstop/src/backstop/pool.rs: convert_to_tokens"]}
{"id": "C75", "title": "Positions and auctions of a pool can be followed from its events", "statement": "An observer that sees nothing but the published events and the numbers of the ledgers they were published in has, at any time and after any history, the shares of every account in every reserve of a pool and the bid, the lot and the first ledger of every auction that is on; unless an auction entry has expired it also knows exactly which auctions are on. Hence two histories with the same events leave every account with the same positions. Every successful operation has a log.", "quantifier": "all deployments, all histories of any length of all operations, all pools, accounts, assets and auctions", "why_tests_cant": "ranges over all histories, and a position that changes without a truthful event shows only in the history that triggers it", "anchors": ["pool/src/pool/actions.rs: build_actions_from_request", "pool/src/pool/bad_debt.rs: transfer_bad_debt_to_backstop", "pool/src/auctions/auction.rs: fill", "pool/src/auctions/auction.rs: scale_auction", "pool/src/auctions/bad_debt_auction.rs: fill_bad_debt_auction", "pool/src/contract.rs: new_liquidation_auction", "pool/src/contract.rs: new_bad_debt_auction", "pool/src/contract.rs: new_interest_auction"]}
{"id": "C76", "title": "The balances of the backstop can be followed from the events", "statement": "An observer that sees nothing but the published events has, at any time and after any history, the backstop tokens, shares and queued shares of every pool, and the shares and the withdrawal queue of every account. Two histories with the same events leave the same balances. The backstop tokens of a pool are exactly what published deposits and donations bring in less what published withdrawals and draws take out.", "quantifier": "all deployments, all histories of any length of all operations, all pools and accounts", "why_tests_cant": "ranges over all histories; a balance that changes without a truthful event shows only in the history that triggers it", "anchors": ["backstop/src/contract.rs: deposit", "backstop/src/contract.rs: queue_withdrawal", "backstop/src/contract.rs: dequeue_withdrawal", "backstop/src/contract.rs: withdraw", "backstop/src/contract.rs: draw", "backstop/src/contract.rs: donate", "backstop/src/emissions/claim.rs: execute_claim", "backstop/src/backstop/user.rs: dequeue_shares_for_withdrawal"]}
{"id": "C77", "title": "The events tell the truth about the tokens of a pool", "statement": "A submit changes a pool's balance of every asset by exactly what its events say: what is supplied and repaid comes in, what is withdrawn and borrowed goes out, and the filler of an interest auction takes the part of the lot that is due. After any history a pool holds at least its initial balance plus what its events say came in less what went out; and exactly that, for every asset other than BLND, if nobody sends the pool tokens outside its own submits.", "quantifier": "all deployments, all histories of any length of all operations, all pools and assets", "why_tests_cant": "ranges over all histories; a token movement without a truthful event shows only in the history that triggers it", "anchors": ["pool/src/pool/actions.rs: build_actions_from_request", "pool/src/pool/submit.rs: execute_submit", "pool/src/auctions/backstop_interest_auction.rs: fill_interest_auction", "pool/src/contract.rs: submit"]}
{"id": "C78", "title": "How fast debts grow", "statement": "As long as the base rate and the slopes of a reserve add up to at most S and its debts are worth no more than its deposits, a debt grows, over any history, by at most the compounding of ten times S per year in every second, plus two roundings of one part in 10^9 per second. And whatever the rate is, in every new ledger in which anybody acts on a reserve with deposits and debts, its debts grow by at least one part in 10^9.", "quantifier": "all deployments, all histories of any length of all operations, all pools, reserves, configurations and times", "why_tests_cant": "the bound is about the product of all accruals of an unbounded history with every pattern of utilization and times", "anchors": ["pool/src/pool/interest.rs: calc_accrual", "pool/src/pool/reserve.rs: Reserve::load", "pool/src/constants.rs: SCALAR_9"]}
{"id": "C79", "title": "Tokens are moved, not made", "statement": "Whatever anybody does, the number of tokens of any kind in all hands together changes exactly by what that operation may create: what the issuer mints and holders burn; one BLND for every second since the last distribution and the drops; the LP tokens Comet gives for the BLND of a backstop claim. No submit, fill, withdrawal, draw, claim or any other operation creates or destroys a token, and over any history the supply of BLND grows by at most one token per second plus the drops.", "quantifier": "all deployments, all histories of any length of all operations, all tokens, all holders", "why_tests_cant": "conservation over all holders must hold for every operation with every set of accounts, including accounts that coincide", "anchors": ["emitter/src/emitter.rs: execute_distribute", "emitter/src/emitter.rs: execute_drop", "pool/src/pool/submit.rs: execute_submit", "backstop/src/emissions/claim.rs: execute_claim", "backstop/src/backstop/fund_management.rs: execute_draw"]}
{"id": "C80", "title": "The management of the protocol can be followed from the events", "statement": "Whoever knows the settings of a pool at some time (for a new pool: the arguments it was deployed with) and from then on sees nothing but the published events and their times, knows at any later time the admin, the take rate, the maximum number of positions, the status, which reserve changes are queued and from when they can be put into effect, the reserves with all their parameters and indices, and the emission schedules. The same holds for the reward zone, the backstop the emitter serves, the queued swap and the deployed pools. Every event names the actual admin, the right index and the actual swap, and no change is put into effect before the time the events announced.", "quantifier": "all deployments, all histories of any length of all operations, all pools and times", "why_tests_cant": "an off-chain observer relies on events of all histories; a test compares the events of single calls", "anchors": ["pool/src/contract.rs: set_admin, update_pool, queue_set_reserve, cancel_set_reserve, set_reserve, update_status, set_status", "pool/src/emissions/manager.rs: update_reserve_emission_config", "backstop/src/contract.rs: add_reward", "emitter/src/contract.rs: queue_swap_backstop, cancel_swap_backstop, swap_backstop, distribute", "pool-factory/src/pool_factory.rs: deploy"]}
{"id": "C81", "title": "Auctions, queued changes and the drop list are not lost before their time", "statement": "An auction, once created or partly filled, stays exactly as it is for 45 days of ledgers unless somebody asks to fill it or the liquidated account asks to delete it: the network does not drop it while it can be of use. A reserve change that the admin queued is there, as queued, for 100 days of ledgers (it can be put into effect after 7 days) unless it is cancelled or put into effect. The backstop's drop list is there for 100 days of ledgers after the backstop was set up; once it is gone, no drop is ever possible. An interest auction that nobody filled in its first 400 ledgers keeps blocking interest auctions of its pool for 45 days.", "quantifier": "all deployments, all histories of any length in which the network drops a temporary entry only after the time to live the contracts gave it", "why_tests_cant": "the network drops entries days after they were written; a test does not run that long, nor through all histories in between", "anchors": ["pool/src/storage.rs: set_auction, set_queued_reserve_set, LEDGER_THRESHOLD_SHARED, LEDGER_THRESHOLD_USER", "backstop/src/storage.rs: set_drop_list", "pool/src/auctions/auction.rs: fill", "backstop/src/contract.rs: initialize, drop"]}
{"id": "C82", "title": "Cutting a fill into pieces gains the filler nothing", "statement": "Filling an auction in several pieces in one submit (or, by C65, in several submits in one ledger) is never better for the filler than one fill. Take percentages m1, m2, ... each of what the one before left over; together they take over 1 - (1 - m1/100)(1 - m2/100)... of the auction. If that is at least n percent, then the filler takes over at least as much debt of every reserve (pays at least as many backstop tokens in an interest auction) as with a single fill of n percent; if it is at most n percent, it receives at most as much collateral, backstop tokens or interest. So all the rounding of small fills is to the disadvantage of the filler, for the three kinds of auctions.", "quantifier": "all deployments and histories, all auctions of the three kinds at any time, all lists of percentages of any length, all single percentages", "why_tests_cant": "the rounding error of each piece depends on the amounts, the age of the auction and the percentages; tests fill once or twice with round numbers", "anchors": ["pool/src/auctions/auction.rs: fill, scale_auction", "pool/src/auctions/user_liquidation_auction.rs: fill_user_liq_auction", "pool/src/auctions/bad_debt_auction.rs: fill_bad_debt_auction", "pool/src/auctions/backstop_interest_auction.rs: fill_interest_auction", "pool/src/pool/actions.rs: build_actions_from_request"]}
{"id": "C83", "title": "What rounding of the emission indices can take away", "statement": "While emissions of a reserve token (or to the depositors of a pool in the backstop) run by one schedule, and its supply (their unqueued shares) stays between 1 and M, the index grows over any history by at least eps * elapsed time * 10^decimals / M, less 1 for each operation that updated it: so rounding takes less than one unit of BLND per whole token of supply and update. That bound is sharp in a bad way: if at every operation the emissions due since the last update are less than one unit of BLND per whole token of supply, the index never moves and nobody's claim grows, for however long this goes on; and anybody, without a position and by claiming nothing, can cause the updates.", "quantifier": "all deployments and histories of any length, all pools, reserve tokens, depositors, supplies, schedules and interleavings of other users' operations", "why_tests_cant": "the loss is made by the number and timing of other users' operations over a long time; a test updates an index a few times, far apart", "anchors": ["pool/src/emissions/distributor.rs: update_emission_data_with_config, execute_claim", "backstop/src/emissions/distributor.rs: update_emission_data, update_emission_data_with_config", "pool/src/emissions/manager.rs: update_reserve_emission_config"]}
{"id": "C84", "title": "Tokens sent to an account harm nobody and change nothing but what it can pay", "statement": "Take two states that differ only in that an account x (a user, a pool, the backstop, anything) holds n more of a token t. Every operation that succeeds without the extra tokens succeeds with them (unless a balance would leave the range of i128), returns and publishes the same, and leaves two states that again differ only in x's n extra tokens; so does every history. The other way round, an operation that succeeds only with the extra tokens fails without them for lack of tokens (or by overflow). So sending tokens to a contract is, for everybody else, the same as burning them: no share price, rate, auction, claim or limit moves, and there is no inflation or donation attack. The only operations excepted look at a balance on purpose: the update of the backstop token's value, if the gift is BLND or USDC to Comet, and queueing, cancelling or executing a swap of backstops, if the gift is backstop tokens to one of the two backstops.", "quantifier": "all states (also unreachable ones), all tokens, accounts, amounts, all operations of all contracts and all histories of any length", "why_tests_cant": "it compares two executions; a test of an inflation attack tries one gift and one victim", "anchors": ["pool/src/pool/submit.rs: execute_submit", "pool/src/pool/reserve.rs: Reserve", "backstop/src/backstop/deposit.rs: execute_deposit", "backstop/src/backstop/pool.rs: PoolBalance", "backstop/src/backstop/fund_management.rs: execute_update_comet_token_value", "emitter/src/backstop_manager.rs: is_new_backstop_is_larger", "test-suites/tests/test_pool_inflation_attack.rs", "test-suites/tests/test_backstop_inflation_attack.rs"]}
{"id": "C85", "title": "How far an oracle reaches", "statement": "Take two states that differ only in what the oracles report (other prices, old prices, none at all). An operation that is neither the creation of an auction nor a submit with a withdrawal of collateral, a borrow, a fill of a liquidation or of bad debt or the deletion of a liquidation goes exactly the same way in both: it returns, publishes and changes the same or fails with the same error; so does every history of such operations, whatever the oracles report meanwhile. A submit that leaves its sender without debts also goes the same way in both. For any other submit the oracles decide only whether it goes through: if it goes through in both states it returns, publishes and changes the same. And the creation of an auction sets that auction (whose terms depend on the prices) and brings emission records up to date, and changes nothing else. So a wrong or dead oracle cannot stop supplies, withdrawals of uncollateralized or debt-free deposits, repayments, claims, status updates, or anything in the backstop, emitter or factory, and can do harm only through unhealthy borrowing, blocked risky submits, and the terms of auctions.", "quantifier": "all states (also unreachable ones), all answers of all oracles, all operations of all contracts, all histories of any length", "why_tests_cant": "it compares executions under all possible oracle answers; a test mocks one oracle with a few prices", "anchors": ["pool/src/pool/submit.rs: execute_submit", "pool/src/pool/actions.rs: build_actions_from_request", "pool/src/pool/health_factor.rs: PositionData", "pool/src/pool/pool.rs: load_price, load_price_decimals", "pool/src/auctions/user_liquidation_auction.rs: create_user_liq_auction_data", "pool/src/auctions/bad_debt_auction.rs: create_bad_debt_auction_data", "pool/src/auctions/backstop_interest_auction.rs: create_interest_auction_data"]}
{"id": "C86", "title": "What rounding can leave in a pool", "statement": "Call leftover of a reserve what the pool has beyond what is owed to others: the tokens it holds without the backstop's interest, plus all debts, minus all that suppliers may claim. C02 says that rounding never makes it fall short; here is how much rounding can take from the users at most. An operation that does not call the pool (and does not send tokens to it) adds nothing to the leftover. A call of the pool adds at most 2 tokens (of the smallest unit) and 10^-9 of a unit per supplied share when interest is accrued, nothing if it was accrued in this ledger already, and the requests of a submit add at most the present worth of one share each: no liquidation, bad debt or interest auction, no write-off of debt and no change of parameters adds anything. So over any history the leftover grows at most by 2 units and 10^-9 per share for each call of the pool and by one share's worth for each request: no schedule of operations makes substantial funds unclaimable.", "quantifier": "all reachable states, all operations of all contracts that do not send tokens to the pool by themselves, all histories of any length, all amounts, rates and parameters; tokens other than BLND (of which claims may bring some to any address)", "why_tests_cant": "rounding errors of each amount and each state accumulate over a history; tests compare single amounts with rounded literals", "anchors": ["pool/src/pool/reserve.rs: load, accrue, to_b_token_down, to_b_token_up, to_d_token_down, to_d_token_up", "pool/src/pool/actions.rs: build_actions_from_request", "pool/src/pool/submit.rs: execute_submit", "pool/src/auctions/backstop_interest_auction.rs: fill_interest_auction", "pool/src/pool/bad_debt.rs: transfer_bad_debt_to_backstop, burn_backstop_bad_debt"]}
{"id": "C87", "title": "What happens inside another pool does not matter", "statement": "Take two states of the system that differ in what one pool q has stored and in nothing else: other positions, reserves, rates, auctions, emission data, parameters, status or admin of q, valid or not. Every operation of every contract that does not call q itself (or deploy it, or expire an entry of its storage) goes the same way in both: it fails with the same error in both, or returns the same value, publishes the same events and changes the rest of the system in the same way, leaving q alone; and so does every history of such operations. A call of q other than a submit, a claim and its collection of emissions (so everything its admin can do, and the creation of auctions) produces just such a difference: for the users of other pools, of the backstop and of the emitter it is as if it had not happened.", "quantifier": "all states of the world (also unreachable ones), all contents of the pool q, all operations of all contracts that do not call q, with all arguments, signatures and errors, all histories of any length", "why_tests_cant": "it compares two executions from all pairs of states that differ in a pool; a test runs one execution in an environment with mostly one pool", "anchors": ["backstop/src/contract.rs: all entry points", "pool/src/contract.rs: all entry points", "emitter/src/contract.rs: all entry points", "pool-factory/src/pool_factory.rs: deploy", "pool/src/storage.rs: all keys"]}
{"id": "C88", "title": "No group of accounts gets richer within a ledger", "statement": "Take any group of accounts (none of them a pool or the backstop), any set of pools and any token t that is a reserve of each of these pools and is neither BLND nor the backstop token. The wealth of the group in t is what its members hold in their wallets, plus their supply and collateral shares minus their debts in these pools, at the prices of the shares with interest up to now. Within a ledger, in whatever way and order the members supply, withdraw, borrow and repay, pay for each other, send each other tokens and liquidate each other, in any number of calls and pools, and whatever everybody else does in between, the wealth of the group never grows, as long as nobody gives the group anything: nobody else pays for a member, sends a member tokens or mints them, no member takes interest of the backstop, liquidates a stranger or has its bad debt moved to the backstop, and no take rate is changed. The prices of the shares are at the end what they were in the beginning; so a group that ends with at least the shares and at most the debts it began with has no more tokens than it began with (no rounding, order of requests, use of several accounts or of flash loans within a submit gives anything).", "quantifier": "all reachable states, all groups of accounts, all sets of pools, all tokens and reserves, all lists of operations of all contracts with all arguments that give the group nothing", "why_tests_cant": "it is about all sequences of calls by any number of accounts and all rounding errors in them; a test tries one sequence", "anchors": ["pool/src/pool/actions.rs: build_actions_from_request", "pool/src/pool/submit.rs: execute_submit", "pool/src/pool/reserve.rs: to_b_token_up to_b_token_down to_d_token_up to_d_token_down", "pool/src/pool/user.rs: User", "pool/src/auctions/auction.rs: fill scale_auction", "pool/src/auctions/user_liquidation_auction.rs: fill_user_liq_auction"]}
{"id": "C89", "title": "A pool does not lend out more than it has", "statement": "Take a reserve that begins empty (no shares, no interest of the backstop, no tokens in the pool). After any history of operations in which nobody sends tokens to the pool by themselves, all debts of the reserve together are at most what its suppliers and the backstop may claim of it together, up to rounding: 2 units and 10^-9 of a unit per supplied share for each call of the pool and one share's worth for each request on the token. So at any nonnegative prices the debts of a pool are not worth more than its supply and the backstop's interest, up to this rounding, whether or not the accounts are healthy, which is what the project's fuzz test of the pool asserts on single runs. The rounding cannot be left out: when all cash is withdrawn, what rounding left in the pool is lent out, and the debts exceed the claims by a few units (the fuzz test's strict comparison does not hold for a single reserve).", "quantifier": "all reachable states, all operations of all contracts that do not send tokens to the pool by themselves, all histories of any length, all amounts, rates and parameters; tokens other than BLND", "why_tests_cant": "the fuzz test asserts it after some random sequences of calls, at single prices; this is about all histories and all rounding in them", "anchors": ["pool/src/pool/reserve.rs: Reserve::load total_supply total_liabilities", "pool/src/pool/actions.rs: build_actions_from_request", "test-suites/fuzz/fuzz_targets/fuzz_pool_general.rs: assert_invariants"]}
{"id": "C90", "title": "Signatures decide whether a call goes through, never what it does", "statement": "For every call of every contract there is a list of accounts whose signatures are needed: the owner of the account and the spender for a submit, the owner for claims, deposits, queueing and withdrawals, the old and the new admin for a change of the admin, the admin for the other management of a pool, the pool itself for draws and donations from outside of a pool, the backstop for the drop, the admin of the new pool for a deployment; nobody for the other calls. Without one of these signatures the call fails. With all of them it does not matter who else signs, in which order or how often: the call returns, changes and publishes the same or fails with the same error. So two calls that differ only in who signed them, and both go through, do the same, and nobody who is not on the list has anything to agree to or to veto.", "quantifier": "all states (also unreachable ones), all calls of all contracts with all arguments, all lists of signers that contain no protocol contract (these authorize as callers only)", "why_tests_cant": "the tests mock all signatures (mock_all_auths) and so never see what happens with fewer or other ones; and it is about all calls, states and lists of signers", "anchors": ["pool/src/contract.rs: require_auth", "backstop/src/contract.rs: require_auth", "emitter/src/contract.rs: drop", "pool-factory/src/pool_factory.rs: deploy", "pool/src/auctions/backstop_interest_auction.rs: fill_interest_auction"]}
{"id": "C91", "title": "No group of accounts gains by trading with the backstop", "statement": "Take any group of accounts and any set of pools. What the group has in backstop tokens is what its members hold in their wallets plus what their shares in the backstops of these pools, queued for withdrawal or not, are worth: their part of the pool's backstop tokens. Whatever the members deposit, queue, dequeue and withdraw there, in any order, number and size and over any time, and whatever else anybody does in between that gives the group no backstop tokens, puts no tokens into these backstops and changes nobody's shares there, what the group has does not grow. So a group that starts without shares never has more backstop tokens than it started with, and one that ends without shares took out at most what its shares were worth: no rounding, order, splitting over accounts or repetition of deposits and withdrawals gains anything. (The pools have backstop tokens only where somebody has shares; otherwise see C34.)", "quantifier": "all reachable states, all finite groups of accounts that do not contain the backstop, all finite sets of pools, all lists of operations of all contracts with all arguments that are deposits, withdrawals, queueings and dequeueings of members or give the group nothing", "why_tests_cant": "it is about any number of deposits and withdrawals in any order and by any number of accounts; tests round-trip a single deposit", "anchors": ["backstop/src/backstop/pool.rs: convert_to_shares, convert_to_tokens", "backstop/src/backstop/deposit.rs: execute_deposit", "backstop/src/backstop/withdrawal.rs: execute_queue_withdrawal, execute_dequeue_withdrawal, execute_withdraw"]}
{"id": "C92", "title": "Stored auctions are about what their type says", "statement": "At any time, every auction a pool has stored is a liquidation, a bad debt or an interest auction. A liquidation is about an account other than the pool and its backstop, and asks for and offers reserves of the pool only. A bad debt auction and an interest auction are about the backstop of the pool; the first asks for debt in reserves of the pool only, of a non-negative amount each, and offers backstop tokens only; the second asks for a non-negative amount of backstop tokens only and offers non-negative amounts of reserves only. Every auction starts in the next ledger at the latest. As long as the oracle of the pool quotes no negative prices, no amount in any stored auction is negative. This survives partial fills, changes of the list of reserves and of the settings.", "quantifier": "all reachable states, all pools, all stored auctions; for the amounts of liquidations and the lots of bad debt auctions all histories from an un-initialized deployment in which the pool's oracle quotes no negative prices", "why_tests_cant": "it is about what any history of creations, partial fills, deletions and reserve changes leaves in storage; tests create single auctions", "anchors": ["pool/src/auctions/auction.rs: create, create_liquidation, delete_liquidation, fill, scale_auction", "pool/src/auctions/user_liquidation_auction.rs: create_user_liq_auction_data", "pool/src/auctions/bad_debt_auction.rs: create_bad_debt_auction_data", "pool/src/auctions/backstop_interest_auction.rs: create_interest_auction_data"]}
{"id": "C93", "title": "The value of backstop tokens is that of the last refresh, whoever made it", "statement": "Whatever depends on the worth of backstop tokens (the status of a pool, the reward zone, the terms of bad debt and interest auctions, whether debts are written off) is decided by a recorded amount of BLND and USDC per backstop token. In every state in which one is recorded it is exactly what the LP pool held per LP token, rounded down to 7 decimals, at the moment of the last refresh (update_tkn_val); no other call and no event outside changes it, however the LP pool has changed since. A refresh needs no signature. The other side, as a concrete history: the value is one of a moment, so by a swap and a swap back in one ledger, with a refresh in between, anybody can have a pool's interest auctioned for half of the backstop tokens.", "quantifier": "all reachable states and the histories that lead to them; all calls and all changes of the environment; the last sentence is a concrete history", "why_tests_cant": "it relates a stored value to a moment arbitrarily far back in the history and needs that none of the calls of four contracts in between touches it", "anchors": ["backstop/src/backstop/fund_management.rs: execute_update_comet_token_value", "backstop/src/contract.rs: update_tkn_val", "backstop/src/backstop/pool.rs: load_pool_backstop_data", "pool/src/auctions/backstop_interest_auction.rs: create_interest_auction_data"]}
{"id": "C94", "title": "The price of backstop shares cannot be inflated by depositors", "statement": "Unless an interest auction of the pool is filled, the backstop never holds more tokens for a pool than there are shares: a share is worth at most one token. No sequence of deposits, withdrawals, claims, transfers of tokens to the backstop or other calls makes it worth more. So every deposit mints at least as many shares as it pays tokens and the shares minted are worth more than the deposit less one unit: there is no attack on the first depositors, and no deposit is rounded to nothing by what others did before. (Filled interest auctions do raise the price, as intended.)", "quantifier": "all histories, of any length, of all calls of the five contracts and of changes outside them, from a new deployment or from any state with at most one token per share", "why_tests_cant": "it is an invariant of a ratio over unbounded histories; the attack it excludes needs particular amounts and an order of calls that a test would have to guess", "anchors": ["backstop/src/backstop/pool.rs: PoolBalance::convert_to_shares, convert_to_tokens, deposit, withdraw", "backstop/src/backstop/deposit.rs: execute_deposit", "backstop/src/backstop/withdrawal.rs: execute_withdraw", "backstop/src/emissions/claim.rs: execute_claim", "backstop/src/backstop/fund_management.rs: execute_donate, execute_draw"]}
{"id": "C95", "title": "The margin of safety of a loan", "statement": "After every submit with a borrow, a withdrawal of collateral or another risky request after which the sender still owes something, and as long as an account is healthy in the sense of the health check, its debts are worth at most its collateral times the product of the largest collateral factor and the largest liability factor it uses (and that with another 0.001 percent of margin, if the oracle has at least five decimals). All values here are exact values, price times tokens per share, with nothing rounded and no risk adjustment: no rounding in the code eats into the margin. So the account stays solvent, whatever happens to prices, interest rates and settings, as long as its collateral shares each keep a fraction a of their value, the value of its debt shares each grows at most by a factor b, and b times the product of the factors is at most a. With factors of 0.75 and 0.9, for example, collateral can lose 32 percent of its price before there can be bad debt.", "quantifier": "all reachable states, all accounts with any number of positions, all prices (not negative) and rates, all later states in which the account has the same shares", "why_tests_cant": "it compares exact values with a computation that rounds six times per position, for any number of positions and any amounts, and it is about every later movement of prices", "anchors": ["pool/src/pool/health_factor.rs: PositionData::calculate_from_positions, is_hf_under", "pool/src/pool/reserve.rs: to_effective_asset_from_b_token, to_effective_asset_from_d_token", "pool/src/pool/submit.rs: execute_submit"]}
{"id": "C96", "title": "The capital of a pool's backstop is committed for 21 days", "statement": "In any period of less than 21 days the shares of a pool's backstop do not fall below those that were not queued for withdrawal at its start, whatever anybody does; and as long as no bad debt auction of the pool is filled, the backstop tokens held for the pool do not fall below the corresponding part of what was held at the start. So what is queued now is an upper bound of what can leave in the next 21 days, and borrowers and suppliers can see three weeks ahead how well the pool is insured.", "quantifier": "all reachable states, all pools, all histories of any length that take less than 21 days, with any number of depositors", "why_tests_cant": "it sums over all depositors and bounds all interleavings of their calls over three weeks", "anchors": ["backstop/src/backstop/user.rs: UserBalance::queue_shares_for_withdrawal, dequeue_shares_for_withdrawal", "backstop/src/backstop/withdrawal.rs: execute_queue_withdrawal, execute_withdraw", "backstop/src/backstop/pool.rs: PoolBalance"]}
{"id": "C97", "title": "The bonus of a liquidation", "statement": "A liquidation auction asks a filler to take over debt and offers collateral for it. The collateral on offer (at the full lot, 200 blocks after the auction starts) is worth at most one and a half times the debt, whatever the positions, prices and factors: the owner never loses more than half of the debt taken over as a bonus. And it is worth at least as much as that debt, unless the auction already offers all of the account's collateral: with 200 blocks to wait, the liquidation pays for itself. Values here are exact values, price times tokens per share, with nothing rounded; the rounding of the code can shift them by the value of two shares and two units per reserve in use, and by one part in 10 to the power of the number of decimals of the oracle.", "quantifier": "all reachable states, all accounts with any number of positions, all percentages, all prices that are not negative", "why_tests_cant": "the terms are computed with a dozen roundings from averages over all positions of the account; the bounds are about exact values for any positions and prices", "anchors": ["pool/src/auctions/user_liquidation_auction.rs: create_user_liq_auction_data", "pool/src/pool/health_factor.rs: PositionData::calculate_from_positions", "pool/src/auctions/auction.rs: scale_auction"]}
{"id": "C98", "title": "A healthy account stays healthy within a ledger, whatever it does", "statement": "A healthy account cannot make itself liquidatable: after any submit of its own, with any requests, an account that was healthy is healthy (as long as there are fresh prices for everything it then has). And within a ledger, while prices and the parameters of the pool stay the same, an account that is healthy at some point cannot be put up for liquidation afterwards, whatever the account itself and all others do in whatever order (nobody filling an earlier liquidation of it or moving its bad debt), if the oracle has at least five decimals. So liquidations only ever come from time, prices and parameters, never from somebody's transactions.", "quantifier": "all reachable states, pools and accounts, all request lists, and all histories of any length of the account's own submits and operations of others within a ledger", "why_tests_cant": "it needs monotonicity of the rounded valuation in every position and an invariant over histories in which the account's positions change in ways that are not checked (supply, repay) and ways that are", "anchors": ["pool/src/pool/submit.rs: execute_submit", "pool/src/pool/actions.rs: build_actions_from_request", "pool/src/pool/health_factor.rs: PositionData::calculate_from_positions", "pool/src/auctions/user_liquidation_auction.rs: create_user_liq_auction_data"]}
{"id": "C99", "title": "How long a borrower has", "statement": "A borrower whose collateral is worth more than its debts has a guaranteed time before anyone can put it up for liquidation, whatever the others do: as long as the prices of its collateral do not fall, those of its debts do not rise, the parameters of the reserves stay and its positions stay, no liquidation can be created until its debts, compounded every second at ten times the highest rate of the curve (C78), have eaten up the margin between the risk adjusted values of collateral and debts (up to a rounding dust of one unit of the oracle, and the price of the smallest amount, per debt). Other accounts may supply, borrow, withdraw, repay and liquidate as they like in between, as long as the reserves in which the account owes stay in normal use and its shares of collateral are not worth fewer tokens than at the start, which never happens if the interest of the reserve of the collateral was stored at the start (as it is after any action of the account with it). And a healthy account stays solvent, its collateral worth at least its debts without rounding or risk adjustment, as long as the prices of its collateral keep a fraction a, those of its debts grow at most by a factor b, and b times the growth of debts in that time times the product of the largest factors of its collateral and its debts is at most a.", "quantifier": "all reachable states, pools, accounts and positions over any number of reserves, all histories of any length, all prices, parameters and times", "why_tests_cant": "it relates the liquidation check at the end of an arbitrary history to the values at its start, through any number of accruals at any times, each rounding up", "anchors": ["pool/src/auctions/user_liquidation_auction.rs: create_user_liq_auction_data", "pool/src/pool/health_factor.rs: PositionData::calculate_from_positions", "pool/src/pool/interest.rs: calc_accrual", "pool/src/pool/reserve.rs: Reserve::load"]}
{"id": "C100", "title": "What a loan costs and what a deposit returns", "statement": "From the first token to the last: an account that owes nothing in a reserve borrows some tokens of it, and when it has repaid its whole debt later, it has paid at least what it borrowed, and at most that compounded every second at ten times the highest rate of the curve for the seconds in between, plus the worth of two debt shares, whatever everybody else did in the meantime (as long as the reserve was in normal use, C78, and the account's debt in it stayed the same number of shares). An account that supplies tokens and later withdraws its whole supply of the reserve gets back what it supplied times the growth of the share price, which is at least one, up to the worth of two supply shares, and never more than that.", "quantifier": "all reachable states, pools, reserves, accounts, payers and receivers, all amounts, and all histories of any length between the two submits", "why_tests_cant": "it relates token amounts of two transactions with an arbitrary history of accruals at arbitrary times in between, each of them rounded", "anchors": ["pool/src/pool/actions.rs: apply_borrow, apply_repay, apply_supply, apply_withdraw", "pool/src/pool/reserve.rs: Reserve::load, to_d_token_up, to_d_token_down, to_b_token_up, to_b_token_down", "pool/src/pool/interest.rs: calc_accrual"]}
{"id": "C101", "title": "Nobody earns more than his share of the emissions", "statement": "Take any finite set of accounts and any history of operations of anyone, during which a reserve token of a pool is emitted by one schedule and some of it exists. If before every operation these accounts together hold at most the fraction a/b of the token, then what they are paid in the history, plus what they can claim at its end, is at most what they could claim at its start, plus a/b of what the schedule emits between the first and the last update of the index, plus one unit of BLND for each account. Splitting a position over accounts, moving it between them by liquidations, entering and leaving, and claiming often or at chosen times earn nothing beyond that; in one operation not even rounding gains anything. If the schedule is restarted with new emissions on the way, the same holds with what was left to be emitted at the start and was allotted to the token since, less what is left to be emitted at the end, in place of what the schedule emits.", "quantifier": "all reachable states, pools, reserve tokens, schedules, finite sets of accounts, fractions, and all histories of any length", "why_tests_cant": "the bound must hold for every interleaving of deposits, withdrawals, auctions and claims of several accounts, and the rounding gains of arbitrarily many operations must not add up", "anchors": ["pool/src/emissions/distributor.rs: update_emissions, update_user_emissions, update_emission_data_with_config, claim_emissions, execute_claim"]}
{"id": "C102", "title": "No backstop depositor earns more than his share of the emissions", "statement": "Take any finite set of accounts and any history of operations of anyone, during which the depositors of a pool in the backstop earn emissions by one schedule and the pool has unqueued backstop shares. If before every operation these accounts together hold at most the fraction a/b of the unqueued shares, and no claim of another account is credited to one of them, then what they are paid in the history, plus what they can claim at its end, is at most what they could claim at its start, plus a/b of what the schedule emits between the first and the last update of the index, plus one unit of BLND for each account. Splitting a deposit over accounts, depositing, queuing, dequeuing and withdrawing, and claiming often or at chosen times earn nothing beyond that. If the schedule is restarted with new emissions on the way, the same holds with what was left to be emitted at the start and was allotted to the depositors since, less what is left to be emitted at the end, in place of what the schedule emits.", "quantifier": "all reachable states, pools, schedules, finite sets of accounts, fractions, and all histories of any length", "why_tests_cant": "the bound must hold for every interleaving of deposits, queued withdrawals and claims of several accounts, and the rounding gains of arbitrarily many operations must not add up", "anchors": ["backstop/src/emissions/distributor.rs: update_emissions, update_user_emissions, update_emission_data, claim_emissions", "backstop/src/emissions/claim.rs: execute_claim"]}
{"id": "C103", "title": "Whoever holds his share of a reserve token earns his share of its emissions", "statement": "Take any account and any history of operations of anyone, during which a reserve token of a pool is emitted by one schedule and some of it exists. Count the operations that update what is recorded of the emissions of the token or of those of the account. If before each of these there is at most M of the token and the account holds at least the fraction a/b of it, then what it is paid in the history, plus what it can claim at its end, is at least what it could claim at its start, plus a/b of what the schedule emits between the first and the last update of the index, less, for each counted operation, one unit of BLND and a/b of one unit per whole token of M, and one unit more. Nobody else can take its share by whatever calls, but for that rounding.", "quantifier": "all reachable states, pools, reserve tokens, schedules, accounts, fractions, and all histories of any length", "why_tests_cant": "the bound must hold for every interleaving with operations of others, who may enter, leave, claim and update the index as often as they like", "anchors": ["pool/src/emissions/distributor.rs: update_emissions, update_user_emissions, update_emission_data, claim_emissions", "pool/src/pool/actions.rs: build_actions_from_request"]}
{"id": "C104", "title": "Whoever holds his share of a backstop deposit earns his share of its emissions", "statement": "Take any account and any history of operations of anyone, during which the depositors of a pool in the backstop earn emissions by one schedule and the pool has unqueued backstop shares. Count the operations that update what is recorded of these emissions or of those of the account. If before each of these there are at most M unqueued shares and the account holds at least the fraction a/b of them, then what it is paid in the history, plus what it can claim at its end, is at least what it could claim at its start, plus a/b of what the schedule emits between the first and the last update of the index, less, for each counted operation, one unit of BLND and a/b of one unit per whole share of M, and one unit more. Nobody else can take its share by whatever calls, also not by crediting claims to it, but for that rounding.", "quantifier": "all reachable states, pools, schedules, accounts, fractions, and all histories of any length", "why_tests_cant": "the bound must hold for every interleaving with deposits, queued withdrawals, claims and credits of others", "anchors": ["backstop/src/emissions/distributor.rs: update_emissions, update_user_emissions, update_emission_data, claim_emissions", "backstop/src/emissions/claim.rs: execute_claim"]}
