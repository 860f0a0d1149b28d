{
 "claims": [
  {
   "property": "C01",
   "status": "proved",
   "theorems": [
    "Blend.Props.C01_share_totals",
    "Blend.Props.C01_balances_positive"
   ],
   "note": ""
  },
  {
   "property": "C02",
   "status": "proved",
   "theorems": [
    "Blend.Props.C02_solvency",
    "Blend.Props.C02_written_off",
    "Blend.Props.C02_no_write_off",
    "Blend.Props.C02_last_bears_the_loss"
   ],
   "note": ""
  },
  {
   "property": "C03",
   "status": "proved",
   "theorems": [
    "Blend.Props.C03_refinement",
    "Blend.Props.C03_no_profit",
    "Blend.Props.C03_round_trip",
    "Blend.Props.C03_supply",
    "Blend.Props.C03_withdraw"
   ],
   "note": ""
  },
  {
   "property": "C04",
   "status": "proved",
   "theorems": [
    "Blend.Props.C04_borrow",
    "Blend.Props.C04_repay"
   ],
   "note": ""
  },
  {
   "property": "C05",
   "status": "proved",
   "theorems": [
    "Blend.Props.C05_rates_never_fall"
   ],
   "note": ""
  },
  {
   "property": "C06",
   "status": "proved",
   "theorems": [
    "Blend.Props.C06_rate_modifier_bounded"
   ],
   "note": ""
  },
  {
   "property": "C07",
   "status": "proved",
   "theorems": [
    "Blend.Props.C07_accrual_factor_ge_one",
    "Blend.Props.C07_accrual_idempotent"
   ],
   "note": ""
  },
  {
   "property": "C08",
   "status": "proved",
   "theorems": [
    "Blend.Props.C08_rate_monotone"
   ],
   "note": ""
  },
  {
   "property": "C09",
   "status": "proved",
   "theorems": [
    "Blend.Props.C09_health",
    "Blend.Props.C09_buffer_needs_decimals"
   ],
   "note": ""
  },
  {
   "property": "C10",
   "status": "proved",
   "theorems": [
    "Blend.Props.C10_submit",
    "Blend.Props.C10_positions",
    "Blend.Props.C10_liquidated"
   ],
   "note": ""
  },
  {
   "property": "C11",
   "status": "proved",
   "theorems": [
    "Blend.Props.C11_gates",
    "Blend.Props.C11_never_blocks"
   ],
   "note": ""
  },
  {
   "property": "C12",
   "status": "proved",
   "theorems": [
    "Blend.Props.C12_status_range",
    "Blend.Props.C12_update",
    "Blend.Props.C12_set",
    "Blend.Props.C12_only",
    "Blend.Props.C12_settles",
    "Blend.Props.C12_settles_twice"
   ],
   "note": ""
  },
  {
   "property": "C13",
   "status": "proved",
   "theorems": [
    "Blend.Props.C13_bound",
    "Blend.Props.C13_never_blocks"
   ],
   "note": ""
  },
  {
   "property": "C14",
   "status": "proved",
   "theorems": [
    "Blend.Props.C14_above_one",
    "Blend.Props.C14_utilization",
    "Blend.Props.C14_not_after_withdrawal"
   ],
   "note": ""
  },
  {
   "property": "C15",
   "status": "proved",
   "theorems": [
    "Blend.Props.C15_schedule",
    "Blend.Props.C15_ends",
    "Blend.Props.C15_liquidation_monotone",
    "Blend.Props.C15_badDebt_monotone",
    "Blend.Props.C15_interest_monotone"
   ],
   "note": ""
  },
  {
   "property": "C16",
   "status": "proved",
   "theorems": [
    "Blend.Props.C16_liquidation_fill",
    "Blend.Props.C16_badDebt_fill",
    "Blend.Props.C16_interest_fill",
    "Blend.Props.C16_percentage",
    "Blend.Props.C16_full_fill_removes",
    "Blend.Props.C16_history",
    "Blend.Props.C16_percentage_wraps"
   ],
   "note": ""
  },
  {
   "property": "C17",
   "status": "proved",
   "theorems": [
    "Blend.Props.C17_created",
    "Blend.Props.C17_not_started",
    "Blend.Props.C17_same_ledger"
   ],
   "note": ""
  },
  {
   "property": "C18",
   "status": "proved",
   "theorems": [
    "Blend.Props.C18_debt_free_account_is_liquidated",
    "Blend.Props.C18_only_unhealthy",
    "Blend.Props.C18_terms",
    "Blend.Props.C18_health_after",
    "Blend.Props.C18_full"
   ],
   "note": ""
  },
  {
   "property": "C19",
   "status": "proved",
   "theorems": [
    "Blend.Props.C19_no_second",
    "Blend.Props.C19_error",
    "Blend.Props.C19_not_replaced"
   ],
   "note": ""
  },
  {
   "property": "C20",
   "status": "proved",
   "theorems": [
    "Blend.Props.C20_healthy",
    "Blend.Props.C20_only_owner"
   ],
   "note": ""
  },
  {
   "property": "C21",
   "status": "proved",
   "theorems": [
    "Blend.Props.C21_transfer",
    "Blend.Props.C21_write_off"
   ],
   "note": ""
  },
  {
   "property": "C22",
   "status": "proved",
   "theorems": [
    "Blend.Props.C22_timelock"
   ],
   "note": ""
  },
  {
   "property": "C23",
   "status": "proved",
   "theorems": [
    "Blend.Props.C23_config_valid",
    "Blend.Props.C23_identity_stable"
   ],
   "note": ""
  },
  {
   "property": "C24",
   "status": "proved",
   "theorems": [
    "Blend.Props.C24_accepts",
    "Blend.Props.C24_split_bounded"
   ],
   "note": ""
  },
  {
   "property": "C25",
   "status": "proved",
   "theorems": [
    "Blend.Props.C25_backstop_index_step",
    "Blend.Props.C25_backstop_index_monotone",
    "Blend.Props.C25_pool_index_step",
    "Blend.Props.C25_pool_index_monotone"
   ],
   "note": ""
  },
  {
   "property": "C26",
   "status": "proved",
   "theorems": [
    "Blend.Props.C26_counts",
    "Blend.Props.C26_pool_emissions_bounded"
   ],
   "note": ""
  },
  {
   "property": "C27",
   "status": "proved",
   "theorems": [
    "Blend.Props.C27_admin_auth",
    "Blend.Props.C27_admin_effects"
   ],
   "note": ""
  },
  {
   "property": "C28",
   "status": "proved",
   "theorems": [
    "Blend.Props.C28_pool",
    "Blend.Props.C28_backstop",
    "Blend.Props.C28_emitter",
    "Blend.Props.C28_factory"
   ],
   "note": ""
  },
  {
   "property": "C29",
   "status": "proved",
   "theorems": [
    "Blend.Props.C29_consent",
    "Blend.Props.C29_tokens",
    "Blend.Props.C29_backstop",
    "Blend.Props.C29_positions"
   ],
   "note": ""
  },
  {
   "property": "C30",
   "status": "proved",
   "theorems": [
    "Blend.Props.C30_share_accounting"
   ],
   "note": ""
  },
  {
   "property": "C31",
   "status": "proved",
   "theorems": [
    "Blend.Props.C31_backstop_funded"
   ],
   "note": ""
  },
  {
   "property": "C32",
   "status": "proved",
   "theorems": [
    "Blend.Props.C32_queue_shape",
    "Blend.Props.C32_queue",
    "Blend.Props.C32_dequeue",
    "Blend.Props.C32_withdraw",
    "Blend.Props.C32_only_withdraw",
    "Blend.Props.C32_lock",
    "Blend.Props.C32_dequeue_is_no_undo"
   ],
   "note": ""
  },
  {
   "property": "C33",
   "status": "proved",
   "theorems": [
    "Blend.Props.C33_share_price"
   ],
   "note": ""
  },
  {
   "property": "C34",
   "status": "proved",
   "theorems": [
    "Blend.Props.C34_no_profit",
    "Blend.Props.C34_first_deposit_takes_donations"
   ],
   "note": ""
  },
  {
   "property": "C35",
   "status": "proved",
   "theorems": [
    "Blend.Props.C35_draw_entry",
    "Blend.Props.C35_only_own_draws",
    "Blend.Props.C35_only_factory_pools"
   ],
   "note": ""
  },
  {
   "property": "C36",
   "status": "proved",
   "theorems": [
    "Blend.Props.C36_reward_zone",
    "Blend.Props.C36_changes",
    "Blend.Props.C36_add_succeeds"
   ],
   "note": ""
  },
  {
   "property": "C37",
   "status": "proved",
   "theorems": [
    "Blend.Props.C37_gulp",
    "Blend.Props.C37_only_gulp"
   ],
   "note": ""
  },
  {
   "property": "C38",
   "status": "proved",
   "theorems": [
    "Blend.Props.C38_own_claims",
    "Blend.Props.C38_fails",
    "Blend.Props.C38_counts"
   ],
   "note": "C38_own_claims is the property for histories of own claims, C38_fails the counterexample (finding) for claims credited to another address"
  },
  {
   "property": "C39",
   "status": "proved",
   "theorems": [
    "Blend.Props.C39_emission",
    "Blend.Props.C39_distribute",
    "Blend.Props.C39_per_second"
   ],
   "note": ""
  },
  {
   "property": "C40",
   "status": "proved",
   "theorems": [
    "Blend.Props.C40_drop",
    "Blend.Props.C40_once"
   ],
   "note": ""
  },
  {
   "property": "C41",
   "status": "proved",
   "theorems": [
    "Blend.Props.C41_swap",
    "Blend.Props.C41_one",
    "Blend.Props.C41_cancel"
   ],
   "note": ""
  },
  {
   "property": "C42",
   "status": "proved",
   "theorems": [
    "Blend.Props.C42_never_forgets",
    "Blend.Props.C42_registry",
    "Blend.Props.C42_deploy",
    "Blend.Props.C42_wired"
   ],
   "note": ""
  },
  {
   "property": "C43",
   "status": "proved",
   "theorems": [
    "Blend.Props.C43_unfillable",
    "Blend.Props.C43_stuck",
    "Blend.Props.C43_badDebt_first_ledger"
   ],
   "note": ""
  },
  {
   "property": "C44",
   "status": "proved",
   "theorems": [
    "Blend.Props.C44_all_queued_reverts"
   ],
   "note": ""
  },
  {
   "property": "C45",
   "status": "proved",
   "theorems": [
    "Blend.Props.C45_submit"
   ],
   "note": ""
  },
  {
   "property": "C46",
   "status": "proved",
   "theorems": [
    "Blend.Props.C46_storage",
    "Blend.Props.C46_backstop",
    "Blend.Props.C46_tokens"
   ],
   "note": ""
  },
  {
   "property": "C47",
   "status": "proved",
   "theorems": [
    "Blend.Props.C47_accrual",
    "Blend.Props.C47_rates_change"
   ],
   "note": ""
  },
  {
   "property": "C48",
   "status": "proved",
   "theorems": [
    "Blend.Props.C48_interest_split"
   ],
   "note": ""
  },
  {
   "property": "C49",
   "status": "proved",
   "theorems": [
    "Blend.Props.C49_bad_debt_terms",
    "Blend.Props.C49_interest_terms",
    "Blend.Props.C49_duplicate_assets"
   ],
   "note": "C49_duplicate_assets is a finding: repeating an asset multiplies the bid, not the lot"
  },
  {
   "property": "C50",
   "status": "proved",
   "theorems": [
    "Blend.Props.C50_entitlement_step",
    "Blend.Props.C50_entitlement_growth",
    "Blend.Props.C50_claim_exact",
    "Blend.Props.C50_first_supplier_takes_all"
   ],
   "note": "C50_first_supplier_takes_all is a finding: emissions that ran while nobody held the token go to the first supplier"
  },
  {
   "property": "C51",
   "status": "proved",
   "theorems": [
    "Blend.Props.C51_entitlement_step",
    "Blend.Props.C51_claim_exact",
    "Blend.Props.C51_duplicate_pools"
   ],
   "note": "C51_duplicate_pools is a finding: naming a pool twice loses the LP tokens of the claim"
  },
  {
   "property": "C52",
   "status": "proved",
   "theorems": [
    "Blend.Props.C52_withdraw_fails_only",
    "Blend.Props.C52_withdraw_succeeds",
    "Blend.Props.C52_withdraw_collateral_fails_only",
    "Blend.Props.C52_withdraw_collateral_succeeds",
    "Blend.Props.C52_repay_fails_only",
    "Blend.Props.C52_repay_succeeds",
    "Blend.Props.C52_steep_slope_blocks"
   ],
   "note": "C52_*_fails_only list all reasons of failure, C52_*_succeeds give sizes within which nothing overflows. C52_steep_slope_blocks is a finding: accepted settings can make every accrual overflow for ever"
  },
  {
   "property": "C53",
   "status": "proved",
   "theorems": [
    "Blend.Props.C53_same_effects",
    "Blend.Props.C53_submit",
    "Blend.Props.C53_set_reserve",
    "Blend.Props.C53_update_status",
    "Blend.Props.C53_gulp",
    "Blend.Props.C53_claim",
    "Blend.Props.C53_new_auction",
    "Blend.Props.C53_deposit",
    "Blend.Props.C53_queue",
    "Blend.Props.C53_withdraw",
    "Blend.Props.C53_backstop_claim",
    "Blend.Props.C53_update_tkn_val",
    "Blend.Props.C53_distribute",
    "Blend.Props.C53_deploy",
    "Blend.Props.C53_pool_data"
   ],
   "note": "C53_same_effects ties exec (with return values) to step"
  },
  {
   "property": "C54",
   "status": "proved",
   "theorems": [
    "Blend.Props.C54_withdraw_iff",
    "Blend.Props.C54_unlocks",
    "Blend.Props.C54_after_21_days",
    "Blend.Props.C54_queue_iff",
    "Blend.Props.C54_dequeue_iff",
    "Blend.Props.C54_drained_backstop_blocks"
   ],
   "note": "C54_withdraw_iff is an exact characterization; C54_unlocks and C54_after_21_days quantify over every history in between"
  },
  {
   "property": "C55",
   "status": "proved",
   "theorems": [
    "Blend.Props.C55_emissions_funded",
    "Blend.Props.C55_fails_after_return_swap"
   ],
   "note": "excludes exactly two situations, each shown to break the claim: foreign claims (C38_fails) and a swap back to the backstop (C55_fails_after_return_swap)"
  },
  {
   "property": "C56",
   "status": "proved",
   "theorems": [
    "Blend.Props.C56_allowance_covers",
    "Blend.Props.C56_all_backed",
    "Blend.Props.C56_lapse_blocks_claims",
    "Blend.Props.C56_fails_after_lapsed_gulp"
   ],
   "note": "excludes exactly the lapse of an allowance, shown to break the claim (C56_lapse_blocks_claims, C56_fails_after_lapsed_gulp)"
  },
  {
   "property": "C57",
   "status": "proved",
   "theorems": [
    "Blend.Props.C57_claim_fails_only",
    "Blend.Props.C57_claim_succeeds"
   ],
   "note": "C57_claim_fails_only holds in every reachable state; C57_claim_succeeds needs the exclusions of C55 and C56, each of which is shown to be necessary there"
  },
  {
   "property": "C58",
   "status": "proved",
   "theorems": [
    "Blend.Props.C58_repayment_blocks_fill",
    "Blend.Props.C58_zero_liability_factor",
    "Blend.Props.C58_insolvent_fails_only",
    "Blend.Props.C58_insolvent_succeeds",
    "Blend.Props.C58_gap"
   ],
   "note": "C58_gap shows why the claim is about insolvent and not about all unhealthy accounts"
  },
  {
   "property": "C59",
   "status": "proved",
   "theorems": [
    "Blend.Props.C59_only_if",
    "Blend.Props.C59_accepted",
    "Blend.Props.C59_uncovered"
   ],
   "note": "C59_accepted and C59_only_if are the two directions; overflow of i128 is the only exception of the first; C59_uncovered names the error when only the funds are missing"
  },
  {
   "property": "C60",
   "status": "proved",
   "theorems": [
    "Blend.Props.C60_moved",
    "Blend.Props.C60_only"
   ],
   "note": "C60_moved and C60_only are the two directions; overflow of i128 is the only exception"
  },
  {
   "property": "C61",
   "status": "proved",
   "theorems": [
    "Blend.Props.C61_bad_debt_auction",
    "Blend.Props.C61_interest_auction",
    "Blend.Props.C61_interest_only_if",
    "Blend.Props.C61_bad_debt_only_if"
   ],
   "note": "the two directions for each kind of auction; the terms are unique (terms_bid, terms_interest); overflow of i128 is the only exception"
  },
  {
   "property": "C62",
   "status": "proved",
   "theorems": [
    "Blend.Props.C62_only_if",
    "Blend.Props.C62_determined",
    "Blend.Props.C62_accepted",
    "Blend.Props.C62_uncovered",
    "Blend.Props.C62_refused"
   ],
   "note": "C62_only_if and C62_accepted are the two directions for all ten kinds of requests, C62_determined the uniqueness of the outcome; overflow of i128 is the only exception; C62_uncovered names the error when only the funds are missing"
  },
  {
   "property": "C63",
   "status": "proved",
   "theorems": [
    "Blend.Props.C63_prices_fixed",
    "Blend.Props.C63_debt_price_fixed",
    "Blend.Props.C63_take_rate_is_retroactive"
   ],
   "note": "C63_prices_fixed for all histories within a ledger; C63_debt_price_fixed includes a change of the take rate; C63_take_rate_is_retroactive is a finding"
  },
  {
   "property": "C64",
   "status": "proved",
   "theorems": [
    "Blend.Props.C64_health_fixed",
    "Blend.Props.C64_not_liquidated"
   ],
   "note": "values, health and positions are equivalent before and after; C64_not_liquidated uses C18_only_unhealthy"
  },
  {
   "property": "C65",
   "status": "proved",
   "theorems": [
    "Blend.Props.C65_batching"
   ],
   "note": "for all ten kinds of requests and all splits"
  },
  {
   "property": "C66",
   "status": "proved",
   "theorems": [
    "Blend.Props.C66_no_slippage",
    "Blend.Props.C66_order"
   ],
   "note": "C66_no_slippage for all histories of operations of others in the ledger, C66_order for two submits"
  },
  {
   "property": "C67",
   "status": "proved",
   "theorems": [
    "Blend.Props.C67_only_if",
    "Blend.Props.C67_accepted"
   ],
   "note": "C67_only_if: an accepted call was in order and had exactly the planned outcome; C67_accepted: a call in order goes through (or a number overflows). The backstop token is not the BLND token"
  },
  {
   "property": "C68",
   "status": "proved",
   "theorems": [
    "Blend.Props.C68_only_if",
    "Blend.Props.C68_accepted"
   ],
   "note": "C68_only_if and C68_accepted: the new storage of the pool is given completely"
  },
  {
   "property": "C69",
   "status": "proved",
   "theorems": [
    "Blend.Props.C69_emitter_only_if",
    "Blend.Props.C69_emitter_accepted",
    "Blend.Props.C69_factory"
   ],
   "note": "C69_emitter_only_if, C69_emitter_accepted (no exception: that the balances stay in range is part of the condition) and C69_factory (equivalence)"
  },
  {
   "property": "C70",
   "status": "proved",
   "theorems": [
    "Blend.Props.C70_claim_fails_only",
    "Blend.Props.C70_claim_funded"
   ],
   "note": "C70_claim_fails_only (every reachable state; the hypotheses on the pools and on the Comet quote are explicit) and C70_claim_funded (with C55: only overflow is left)"
  },
  {
   "property": "C71",
   "status": "proved",
   "theorems": [
    "Blend.Props.C71_backstop_only_if",
    "Blend.Props.C71_backstop_accepted",
    "Blend.Props.C71_pool_only_if",
    "Blend.Props.C71_pool_accepted",
    "Blend.Props.C71_gulp_without_split"
   ],
   "note": "C71_backstop_only_if, C71_backstop_accepted, C71_pool_only_if (with the exact outcome), C71_pool_accepted; C71_gulp_without_split is the consequence for a pool without a split (finding 20)"
  },
  {
   "property": "C72",
   "status": "proved",
   "theorems": [
    "Blend.Props.C72_only_if",
    "Blend.Props.C72_determined",
    "Blend.Props.C72_accepted"
   ],
   "note": "C72_only_if, C72_determined, C72_accepted: equivalence up to overflow, for every percentage (C58 has 100 percent without the exception)"
  },
  {
   "property": "C73",
   "status": "proved",
   "theorems": [
    "Blend.Props.C73_manage",
    "Blend.Props.C73_direct"
   ],
   "note": "C73_manage: an equivalence, with the conditions on the range of i128 in the plan; C73_direct: the calls reserved to pools. The emitter given to initialize must be the modelled one."
  },
  {
   "property": "C74",
   "status": "proved",
   "theorems": [
    "Blend.Props.C74_lender",
    "Blend.Props.C74_depositor"
   ],
   "note": "C74_lender (positions, emission records, no auction, worth) and C74_depositor (shares, queue, worth; without fills of bad debt auctions of the pool, which are the purpose of the deposit)."
  },
  {
   "property": "C75",
   "status": "proved",
   "theorems": [
    "Blend.Props.C75_every_history_has_a_log",
    "Blend.Props.C75_follow",
    "Blend.Props.C75_auctions_on",
    "Blend.Props.C75_events_determine"
   ],
   "note": "C75_follow (the observer's notes are right), C75_auctions_on (exactly the auctions that are on, without expiry), C75_events_determine (the observer left out), C75_every_history_has_a_log. The observer is Spec/Follow.lean."
  },
  {
   "property": "C76",
   "status": "proved",
   "theorems": [
    "Blend.Props.C76_follow",
    "Blend.Props.C76_events_determine",
    "Blend.Props.C76_tokens_add_up"
   ],
   "note": "C76_follow, C76_events_determine, C76_tokens_add_up. The observer is Spec/FollowBackstop.lean."
  },
  {
   "property": "C77",
   "status": "proved",
   "theorems": [
    "Blend.Props.C77_submit",
    "Blend.Props.C77_at_least",
    "Blend.Props.C77_exactly"
   ],
   "note": "C77_submit, C77_at_least, C77_exactly. The reading of the events is Spec/FollowCash.lean."
  },
  {
   "property": "C78",
   "status": "proved",
   "theorems": [
    "Blend.Props.C78_at_most",
    "Blend.Props.C78_at_least"
   ],
   "note": "C78_at_most (upper bound over histories), C78_at_least (lower bound per ledger). The hypothesis on the utilization cannot be dropped: C14_above_one."
  },
  {
   "property": "C79",
   "status": "proved",
   "theorems": [
    "Blend.Props.C79_step",
    "Blend.Props.C79_supply",
    "Blend.Props.C79_history",
    "Blend.Props.C79_blnd"
   ],
   "note": "C79_step (one operation), C79_supply and C79_history (any history), C79_blnd (BLND)."
  },
  {
   "property": "C80",
   "status": "proved",
   "theorems": [
    "Blend.Props.C80_total",
    "Blend.Props.C80_pool",
    "Blend.Props.C80_new_pool",
    "Blend.Props.C80_system"
   ],
   "note": "C80_pool (settings of a pool), C80_new_pool (a new pool), C80_system (reward zone, emitter, factory), C80_total (every history has a log). The emission split is not published (finding 23)."
  },
  {
   "property": "C81",
   "status": "proved",
   "theorems": [
    "Blend.Props.C81_auction",
    "Blend.Props.C81_auction_since_start",
    "Blend.Props.C81_interest_blocked",
    "Blend.Props.C81_queued",
    "Blend.Props.C81_drop_list",
    "Blend.Props.C81_drop_list_gone"
   ],
   "note": "C81_auction, C81_auction_since_start (auctions), C81_interest_blocked, C81_queued (queued changes), C81_drop_list, C81_drop_list_gone."
  },
  {
   "property": "C82",
   "status": "proved",
   "theorems": [
    "Blend.Props.C82_liquidation",
    "Blend.Props.C82_bad_debt",
    "Blend.Props.C82_interest"
   ],
   "note": "C82_liquidation, C82_bad_debt, C82_interest."
  },
  {
   "property": "C83",
   "status": "proved",
   "theorems": [
    "Blend.Props.C83_pool_index_bound",
    "Blend.Props.C83_backstop_index_bound",
    "Blend.Props.C83_pool_starved",
    "Blend.Props.C83_anyone_can_starve",
    "Blend.Props.C83_backstop_starved"
   ],
   "note": "C83_pool_index_bound, C83_backstop_index_bound (lower bounds on the growth of the index), C83_pool_starved, C83_backstop_starved (no growth under frequent updates), C83_anyone_can_starve (a concrete case)."
  },
  {
   "property": "C84",
   "status": "proved",
   "theorems": [
    "Blend.Props.C84_no_harm",
    "Blend.Props.C84_same_events",
    "Blend.Props.C84_only_funds",
    "Blend.Props.C84_history",
    "Blend.Props.C84_sending_is_burning",
    "Blend.Props.C84_minting"
   ],
   "note": "C84_no_harm, C84_same_events, C84_history (nothing is lost and nothing else moves), C84_only_funds (what becomes possible), C84_sending_is_burning, C84_minting (how such states arise)."
  },
  {
   "property": "C85",
   "status": "proved",
   "theorems": [
    "Blend.Props.C85_independent",
    "Blend.Props.C85_same_events",
    "Blend.Props.C85_history",
    "Blend.Props.C85_no_debt",
    "Blend.Props.C85_submit",
    "Blend.Props.C85_creation"
   ],
   "note": "C85_independent, C85_same_events, C85_history (operations that ask no oracle), C85_no_debt, C85_submit (submits), C85_creation (auctions)."
  },
  {
   "property": "C86",
   "status": "proved",
   "theorems": [
    "Blend.Props.C86_step",
    "Blend.Props.C86_history",
    "Blend.Props.C86_ledger"
   ],
   "note": "C86_step (one operation), C86_history (any history, counting calls and requests), C86_ledger (within a ledger only requests count). Amounts in 10^-9 units of the token."
  },
  {
   "property": "C87",
   "status": "proved",
   "theorems": [
    "Blend.Props.C87_independent",
    "Blend.Props.C87_same_events",
    "Blend.Props.C87_history",
    "Blend.Props.C87_private"
   ],
   "note": "C87_independent (results, errors and states), C87_same_events, C87_history, C87_private (which calls of q make only such a difference). With C46 (what an operation may change of other pools)."
  },
  {
   "property": "C88",
   "status": "proved",
   "theorems": [
    "Blend.Props.C88_no_free_lunch",
    "Blend.Props.C88_round_trip"
   ],
   "note": "C88_no_free_lunch (the prices stay and the wealth of the group does not grow), C88_round_trip (in tokens). Fills of the backstop's bad debt by members are allowed (they pay LP tokens of the backstop's out in a token that is not t, and take debts); C15 and C16 say what a stranger pays and gets in a liquidation."
  },
  {
   "property": "C89",
   "status": "proved",
   "theorems": [
    "Blend.Props.C89_lent",
    "Blend.Props.C89_rounding"
   ],
   "note": "C89_lent, C89_rounding (a history after which the debts exceed the claims by two units)."
  },
  {
   "property": "C90",
   "status": "proved",
   "theorems": [
    "Blend.Props.C90_same",
    "Blend.Props.C90_needed",
    "Blend.Props.C90_outcome"
   ],
   "note": "C90_same (with the needed signatures others do not matter), C90_needed (each of them is needed), C90_outcome. That a signature covers the arguments and the nested calls is the Soroban host's, not modelled."
  },
  {
   "property": "C91",
   "status": "proved",
   "theorems": [
    "Blend.Props.C91_no_gain",
    "Blend.Props.C91_round_trip",
    "Blend.Props.C91_others"
   ],
   "note": "C91_no_gain, C91_round_trip; C91_others: with others depositing and withdrawing in between, up to the rounding of each of their calls. Claims of others that buy shares at these backstops are not in C91_others."
  },
  {
   "property": "C92",
   "status": "proved",
   "theorems": [
    "Blend.Props.C92_contents",
    "Blend.Props.C92_amounts"
   ],
   "note": "C92_contents (no assumption on prices), C92_amounts (with prices that are not negative)"
  },
  {
   "property": "C93",
   "status": "proved",
   "theorems": [
    "Blend.Props.C93_refresh",
    "Blend.Props.C93_only_refresh",
    "Blend.Props.C93_last_refresh",
    "Blend.Props.C93_spot_value"
   ],
   "note": "C93_last_refresh, C93_only_refresh, C93_refresh; C93_spot_value is the concrete history with the swap"
  },
  {
   "property": "C94",
   "status": "proved",
   "theorems": [
    "Blend.Props.C94_step",
    "Blend.Props.C94_at_most_par",
    "Blend.Props.C94_from_genesis",
    "Blend.Props.C94_deposit"
   ],
   "note": "C94_step, C94_at_most_par, C94_from_genesis: the invariant; C94_deposit: what it means for a deposit; a run shows that the exception is needed"
  },
  {
   "property": "C95",
   "status": "proved",
   "theorems": [
    "Blend.Props.C95_margin",
    "Blend.Props.C95_after_submit",
    "Blend.Props.C95_solvent",
    "Blend.Props.C95_prices"
   ],
   "note": "C95_margin, C95_after_submit; C95_solvent for any change of prices and rates, C95_prices for a change of prices alone"
  },
  {
   "property": "C96",
   "status": "proved",
   "theorems": [
    "Blend.Props.C96_shares",
    "Blend.Props.C96_committed"
   ],
   "note": "C96_shares, C96_committed"
  },
  {
   "property": "C97",
   "status": "proved",
   "theorems": [
    "Blend.Props.C97_bonus"
   ],
   "note": "C97_bonus; the schedule by which lot and bid then move is C15, and after block 200 it is the bid that shrinks"
  },
  {
   "property": "C98",
   "status": "proved",
   "theorems": [
    "Blend.Props.C98_submit_keeps_health",
    "Blend.Props.C98_not_liquidated"
   ],
   "note": "C98_submit_keeps_health, C98_not_liquidated; for the actions of others alone see C64"
  },
  {
   "property": "C99",
   "status": "proved",
   "theorems": [
    "Blend.Props.C99_shares_keep",
    "Blend.Props.C99_not_liquidated",
    "Blend.Props.C99_solvent"
   ],
   "note": "C99_not_liquidated, C99_solvent (C95 over time), C99_shares_keep (discharges the condition on the shares of collateral); the conditions on prices, settings and positions are OnlyTime, those on the reserves NormalDebts (as in C78)"
  },
  {
   "property": "C100",
   "status": "proved",
   "theorems": [
    "Blend.Props.C100_loan",
    "Blend.Props.C100_deposit"
   ],
   "note": "C100_loan, C100_deposit; the account's shares staying the same is a hypothesis about the two ends only"
  },
  {
   "property": "C101",
   "status": "proved",
   "theorems": [
    "Blend.Props.C101_share",
    "Blend.Props.C101_step",
    "Blend.Props.C101_any_schedule"
   ],
   "note": "C101_step for one operation, without any rounding and without a condition on the schedule after it, C101_share for histories under one schedule, C101_any_schedule through any restarts of the schedule by gulps, bounded by what was left to emit and what was allotted to the token since (ghost counter `received`, the one of C50); some supply of the token at every operation is a hypothesis (C50_first_supplier_takes_all shows why)"
  },
  {
   "property": "C102",
   "status": "proved",
   "theorems": [
    "Blend.Props.C102_share",
    "Blend.Props.C102_step",
    "Blend.Props.C102_credited",
    "Blend.Props.C102_any_schedule"
   ],
   "note": "C102_step for one operation, without any rounding and without a condition on the schedule after it, C102_share for histories under one schedule, C102_any_schedule through any restarts of the schedule by gulps, bounded by what was left to emit and what was allotted to the depositors since (ghost counter `received`, the one of C37); C102_credited shows that the condition on claims credited to others is needed"
  },
  {
   "property": "C103",
   "status": "proved",
   "theorems": [
    "Blend.Props.C103_fair_share"
   ],
   "note": "C103_fair_share; the counterpart of C101_share. That the rounding matters is C83; some supply at every operation is a hypothesis as in C101"
  },
  {
   "property": "C104",
   "status": "proved",
   "theorems": [
    "Blend.Props.C104_fair_share"
   ],
   "note": "C104_fair_share; the counterpart of C102_share, and, unlike it, without a condition on claims credited to others"
  }
 ]
}