import Verif.Lemmas.BCall
/-
  Every operation is a sequence of small steps of the backstop; invariants over histories.
-/

namespace Blend
namespace Backstop

theorem wf_bs {w w' : World} {L A : Address → Prop} {now : Nat} {F : Prop} {U : Address → Prop} (h : WF L A w w') (hL : ¬ L w.backstopAddr)
    (hA : ¬ A w.backstopAddr) (hb : w'.backstop = w.backstop) (hal : BAllow w) :
    BMicros now F U (.of w) (.of w') ∧ BAllow w' := by
  have hm : BMicros now F U (.of w) (.of w') := bs_gain hb h.backstopAddr fun t => .inl (h.bal t _ hL)
  exact ⟨hm, hal.of hm h.backstopAddr fun t s => .inl (h.allow t _ s hA)⟩

theorem bs_misc {now : Nat} {F : Prop} {U : Address → Prop} (w : World) (hal : BAllow w) (ld rz pe lv dl) :
    BMicros now F U (.of w) (.of (w.setBackstop { w.backstop with
        lastDistro := ld, rewardZone := rz, poolEmis := pe, lpVal := lv, dropList := dl })) ∧
      BAllow (w.setBackstop { w.backstop with
        lastDistro := ld, rewardZone := rz, poolEmis := pe, lpVal := lv, dropList := dl }) := by
  have hm : BMicros now F U (.of w) (.of (w.setBackstop { w.backstop with
        lastDistro := ld, rewardZone := rz, poolEmis := pe, lpVal := lv, dropList := dl })) :=
    .one (.misc (BS.of w) ld rz pe lv dl)
  exact ⟨hm, hal.of hm rfl fun t s => .inl rfl⟩

theorem claim_micros {w w' : World} {s d : Address} {ps : List Address} {n : Int} (inv : BInv w.time w.backstop)
    (hal : BAllow w) (h : executeClaim w s ps d = .ok (n, w')) :
    BMicros w.time (d ≠ s) (fun u => u = s ∨ u = d) (.of w) (.of w') ∧ BAllow w' := by
  simp only [executeClaim, cometDeposit, bind_ok, pure_ok, Prod.exists, ite_ok, inst, unwrap_ok,
    Prod.mk.injEq, chk_ok] at h
  obtain ⟨_, _, c, cl, b1, hl, ⟨hc, i, hi, lp, w2, ⟨w3, ht, w4, hm, s', ⟨_, rfl⟩, rfl, rfl⟩, b2, hd, _, rfl⟩ |
      ⟨_, _, rfl⟩⟩ := h
  · obtain ⟨k1, k2, k3, k4, _, k5, _, k6⟩ :=
      claimLoop_ok (F := d ≠ s) (U := fun u => u = s ∨ u = d) (.inl rfl) (S := BS.of w) inv hl
    have r := transfer_res ht
    have m := mint_res hm
    have hi' : b1.inst = some i := hi
    have hw3 : w3.backstop = b1 := by rw [r.frame]; rfl
    have hw4 : w4.backstop = b1 := by rw [m.frame]; exact hw3
    have ha : w4.backstopAddr = w.backstopAddr := by rw [m.frame]; show w3.backstopAddr = _; rw [r.frame]; rfl
    -- the BLND leaves
    have m2 : BMicro w.time (d ≠ s) (fun u => u = s ∨ u = d) ⟨b1, fun t => w.balance t w.backstopAddr, 0⟩
        ⟨b1, fun t => w3.balance t w.backstopAddr, 0⟩ := by
      refine .vb _ _ fun t => ?_
      by_cases e : t = i.blnd
      · exact .inr ⟨i, hi', e⟩
      · left
        rw [r.bal]
        unfold moved
        simp only [e, false_and, if_false]
        exact le_of_eq (add_zero _).symm
    -- LP tokens are minted
    have m3 : BMicro w.time (d ≠ s) (fun u => u = s ∨ u = d) ⟨b1, fun t => w3.balance t w.backstopAddr, 0⟩
        ⟨b1, fun t => w4.balance t w.backstopAddr, 0 + w.cometOut c⟩ := by
      have hco : w3.cometOut c = w.cometOut c := by rw [r.frame]; rfl
      refine .mintLp ⟨b1, fun t => w3.balance t w.backstopAddr, 0⟩ (w.cometOut c) i _ m.nonneg hi' fun t _ => ?_
      show w3.balance t w.backstopAddr + _ ≤ w4.balance t w.backstopAddr
      rw [m.bal]
      by_cases e : t = i.backstopToken
      · rw [if_pos e, if_pos ⟨e, rfl⟩]
        exact le_of_eq rfl
      · rw [if_neg e, if_neg (by simp [e])]
    obtain ⟨fl', k7, k8⟩ := creditLoop_ok (now := w.time) (F := d ≠ s) (U := fun u => u = s ∨ u = d) (lpOut := w.cometOut c) (claimed := c) (cl := cl)
      (dst := d) (.inr rfl) m.nonneg hc (ps := ps)
      (S := ⟨b1, fun t => w4.balance t w.backstopAddr, 0 + w.cometOut c⟩) (b' := b2) k2 ⟨i, hi'⟩
      (fun p hp => by
        by_cases e : d = s
        · right; rw [e]; exact k5 p hp
        · exact .inl e) k3 (by simpa [hw4, World.setBackstop] using hd)
    have hfl : 0 ≤ fl' := by
      have h1 : w.cometOut c * claimSum cl ps ≤ w.cometOut c * c :=
        mul_le_mul_of_nonneg_left (by omega) m.nonneg
      simp only at k8
      by_contra hn
      have h2 : c * (0 + w.cometOut c - fl') = w.cometOut c * c - c * fl' := by ring
      have h3 : c * fl' < 0 := mul_neg_of_pos_of_neg hc (by omega)
      linarith
    have m4 : BMicro w.time (d ≠ s) (fun u => u = s ∨ u = d) ⟨b2, fun t => w4.balance t w.backstopAddr, fl'⟩
        ⟨b2, fun t => w4.balance t w.backstopAddr, 0⟩ := .settle _ hfl
    have hall := ((k1.trans (.one m2)).trans (.one m3)).trans (k7.trans (.one m4))
    have e : BS.of (World.setBackstop { w4 with cometShares := w4.cometShares + w.cometOut c } b2) =
        ⟨b2, fun t => w4.balance t w.backstopAddr, 0⟩ := by
      unfold BS.of World.setBackstop World.balance
      simp [ha]
    have hall' : BMicros w.time (d ≠ s) (fun u => u = s ∨ u = d) (.of w)
        (.of (World.setBackstop { w4 with cometShares := w4.cometShares + w.cometOut c } b2)) := by
      rw [e]; exact hall
    refine ⟨hall', hal.of hall' ha fun t x => .inl ?_⟩
    show (w4.tok t).allow _ _ = _
    rw [m.allow, r.allow]; rfl
  · obtain ⟨k1, _⟩ :=
      claimLoop_ok (F := d ≠ s) (U := fun u => u = s ∨ u = d) (.inl rfl) (S := BS.of w) inv hl
    exact ⟨k1, BAllow.of (w' := w.setBackstop b1) hal k1 rfl fun t s => .inl rfl⟩

theorem call_micros {w w' : World} {auth : List Address} {c : BackstopCall} (hb : Base w)
    (inv : BInv w.time w.backstop) (hal : BAllow w) (hauth : ∀ a ∈ auth, ¬ w.isProtocol a)
    (h : backstopCall w auth c = .ok w') :
    BMicros w.time (ForeignClaim (.backstop auth c)) (BTouches (.backstop auth c)) (.of w) (.of w') ∧ BAllow w' := by
  have hprot : w.isProtocol w.backstopAddr := .inr (.inl rfl)
  have sb : ∀ {F : Prop} {U : Address → Prop} {b : BackstopState},
      BMicros w.time F U (.of w) ⟨b, fun t => w.balance t w.backstopAddr, 0⟩ →
      BMicros w.time F U (.of w) (.of (w.setBackstop b)) ∧ BAllow (w.setBackstop b) := by
    intro F U b h
    exact ⟨h, BAllow.of (w' := w.setBackstop b) hal h rfl fun t s => .inl rfl⟩
  cases c with
  | «initialize» t e u b f l =>
    simp only [backstopCall, init, bind_ok, pure_ok, require_ok] at h
    obtain ⟨_, hn, _, _, _, _, rfl⟩ := h
    exact sb (.one (.init (BS.of w) _ _ _ hn fun t => hb.balances t _))
  | deposit s p a =>
    simp only [backstopCall, deposit, executeDeposit, bind_ok, pure_ok, Prod.exists, requireAuth_ok, requireNonneg,
      require_ok, inst, unwrap_ok, pbDeposit, addShares, chk_ok, Prod.mk.injEq] at h
    obtain ⟨_, _, ⟨_, hm, _, h0, _, hne, _, _, x, b1, hu, i, hi, w2, ht, m, hsh, _, hmz, _, ⟨_, ⟨_, rfl⟩, _, ⟨_, rfl⟩, rfl⟩, _,
      ⟨_, ⟨_, rfl⟩, rfl⟩, _, rfl⟩, rfl⟩ := h
    have r := transfer_res ht
    have hi' : w.backstop.inst = some i := by
      have : b1.inst = some i := hi
      rwa [(inv.emis' hu).2.2.2] at this
    have hw2 : w2.backstop = b1 := by rw [r.frame]; rfl
    have ha : w2.backstopAddr = w.backstopAddr := by rw [r.frame]; rfl
    push Not at hne
    have hm : BMicros w.time (ForeignClaim (.backstop auth (.deposit s p a))) (BTouches (.backstop auth (.deposit s p a))) (.of w) _ :=
      .one (.deposit (BS.of w) p s a m x b1 i (fun t => w2.balance t w.backstopAddr) rfl (by omega) hi' hu hsh hmz fun t => by
        rw [r.bal, moved_to hne.2]; exact le_refl _)
    have hm' : BMicros w.time (ForeignClaim (.backstop auth (.deposit s p a))) (BTouches (.backstop auth (.deposit s p a))) (.of w)
        (.of (w2.setBackstop ((w2.backstop.setPoolBal p { w.backstop.getPoolBal p with
          tokens := (w.backstop.getPoolBal p).tokens + a
          shares := (w.backstop.getPoolBal p).shares + m }).setUserBal p s
        { w.backstop.getUserBal p s with shares := (w.backstop.getUserBal p s).shares + m }))) := by
      convert hm using 1
      unfold BS.of World.setBackstop World.balance
      simp only [ha, hw2, setBal_eq]
    refine ⟨hm', hal.of hm' ha fun t x => .inl ?_⟩
    show (w2.tok t).allow _ _ = _
    rw [r.allow]; rfl
  | queueWithdrawal s p a =>
    simp only [backstopCall, queueWithdrawal, executeQueue, bind_ok, pure_ok, Prod.exists, requireNonneg,
      require_ok, pbQueue, chk_ok] at h
    obtain ⟨_, _, _, h0, x, b1, hu, ub, hq, _, ⟨_, ⟨_, rfl⟩, rfl⟩, rfl⟩ := h
    obtain ⟨q1, q2, rfl⟩ := queueShares_ok hq
    exact sb (.one (.queue (BS.of w) p s a x b1 rfl (by omega) q1 q2 hu))
  | dequeueWithdrawal s p a =>
    simp only [backstopCall, dequeueWithdrawal, executeDequeue, bind_ok, pure_ok, Prod.exists, requireNonneg,
      require_ok, pbDequeue, addShares, chk_ok] at h
    obtain ⟨_, _, _, h0, x, b1, hu, ub, hq, _, ⟨_, ⟨_, rfl⟩, rfl⟩, _, ⟨_, hle, _, ⟨_, rfl⟩, rfl⟩, rfl⟩ := h
    obtain ⟨q1, q2⟩ := dequeueShares_ok (by omega) hq
    refine sb ?_
    rw [q1]
    exact (.one (.dequeue (BS.of w) p s a x b1 ub.q4w rfl (by omega) (by show a ≤ (w.backstop.getPoolBal p).q4w; omega) hu q2))
  | withdraw s p a =>
    simp only [backstopCall, withdraw, executeWithdraw, bind_ok, pure_ok, Prod.exists, Prod.mk.injEq, requireNonneg,
      require_ok, inst, unwrap_ok] at h
    obtain ⟨_, _, ⟨_, _, _, h0, ub, hq, tk, htk, _, hnz, pb', hpb, i, hi, w2, ht, _, rfl⟩, rfl⟩ := h
    obtain ⟨q1, q2⟩ := dequeueShares_ok (by omega) hq
    obtain ⟨p1, p2, p3, rfl⟩ := pbWithdraw_ok hpb
    have r := transfer_res ht
    have ha : w2.backstopAddr = w.backstopAddr := by rw [r.frame]; rfl
    have htk0 : 0 < tk := by have := r.nonneg; omega
    have hm : BMicros w.time (ForeignClaim (.backstop auth (.withdraw s p a))) (BTouches (.backstop auth (.withdraw s p a))) (.of w) _ :=
      .one (.withdraw (BS.of w) p s a tk ub.q4w i (fun t => w2.balance t w.backstopAddr) rfl (by omega) hi p1 p2 p3 htk htk0 q2 fun t => by
        rw [r.bal]
        have h1 := moved_self i.backstopToken w.backstopAddr s r.nonneg t
        show w.balance t w.backstopAddr - _ ≤ w.balance t w.backstopAddr + _
        omega)
    have hm' : BMicros w.time (ForeignClaim (.backstop auth (.withdraw s p a))) (BTouches (.backstop auth (.withdraw s p a))) (.of w)
        (.of w2) := by
      convert hm using 1
      unfold BS.of
      rw [show w2.backstop = _ from (by rw [r.frame]), ha]
      congr 1
      rw [World.setBackstop, setBal_eq']
      simp only
      congr 1
    refine ⟨hm', hal.of hm' ha fun t x => .inl ?_⟩
    rw [r.allow]; rfl
  | gulpEmissions =>
    simp only [backstopCall, gulpEmissions, bind_ok, pure_ok, Prod.exists, Prod.mk.injEq, require_ok, chk_ok, inst, unwrap_ok] at h
    obtain ⟨_, _, ⟨_, _, i, _, _, _, el, _, _, _, ne, ⟨_, rfl⟩, tb, htb, tp, _, tn, htn, b1, hf, _, rfl⟩, rfl⟩ := h
    have m0 : BMicro w.time (ForeignClaim (.backstop auth .gulpEmissions)) (BTouches (.backstop auth .gulpEmissions)) (BS.of w) _ :=
      .misc (BS.of w) el w.backstop.rewardZone w.backstop.poolEmis w.backstop.lpVal w.backstop.dropList
    have inv0 := bmicro_inv m0 inv
    have htb0 : 0 ≤ tb := mulDivFloor_nonneg htb (by unfold SCALAR_7; norm_num)
      (mul_nonneg (mul_nonneg (by positivity) (by unfold SCALAR_7; norm_num)) (by norm_num))
    exact sb ((BMicros.one m0).trans (setEmis_folds htb0 _ inv0 (totalNonQueued_nonneg inv0 htn) hf))
  | addReward a r =>
    simp only [backstopCall, addReward, bind_ok, pure_ok, Prod.exists, ite_ok] at h
    obtain ⟨_, _, _, _, _, _, ⟨_, _, _, rfl⟩ | ⟨_, _, _, _, _, _, _, _, _, _, _, rfl⟩⟩ := h <;>
      exact bs_misc w hal w.backstop.lastDistro _ w.backstop.poolEmis w.backstop.lpVal w.backstop.dropList
  | gulpPoolEmissions p =>
    simp only [backstopCall, gulpPoolEmissionsAuth, bind_ok, pure_ok, Prod.exists] at h
    obtain ⟨_, _, ⟨_, _, h⟩, rfl⟩ := h
    obtain ⟨h1, h2, h3⟩ := gulpPool_micros (now := w.time) (F := ForeignClaim (.backstop auth (.gulpPoolEmissions p)))
      (U := BTouches (.backstop auth (.gulpPoolEmissions p))) h
    exact ⟨h1, hal.of h1 h2 fun t s => (h3 t _ s).imp id .inr⟩
  | claim s ps d =>
    simp only [backstopCall, claim, bind_ok, pure_ok, Prod.exists] at h
    obtain ⟨_, _, ⟨_, _, h⟩, rfl⟩ := h
    exact claim_micros inv hal h
  | drop =>
    simp only [backstopCall, drop, bind_ok] at h
    obtain ⟨_, _, _, _, _, _, h⟩ := h
    obtain ⟨h1, _, h3, _⟩ := Emitter.drop_ok (L := fun _ => False) (A := fun _ => False) h
    exact wf_bs h1 id id h3 hal
  | draw p a d =>
    simp only [backstopCall, draw, bind_ok] at h
    obtain ⟨_, _, h⟩ := h
    obtain ⟨h1, h2, h3⟩ := draw_micros (now := w.time) (F := ForeignClaim (.backstop auth (.draw p a d)))
      (U := BTouches (.backstop auth (.draw p a d))) h
    exact ⟨h1, hal.of h1 h2 fun t s => .inl (by rw [h3])⟩
  | donate s p a =>
    simp only [backstopCall, donate, bind_ok, requireAuth_ok] at h
    obtain ⟨_, hm, _, _, h⟩ := h
    obtain ⟨h1, h2, h3⟩ := donate_micros (now := w.time) (F := ForeignClaim (.backstop auth (.donate s p a)))
      (U := BTouches (.backstop auth (.donate s p a))) h
    exact ⟨h1, hal.of h1 h2 fun t s => .inl (by rw [h3])⟩
  | updateTknVal =>
    simp only [backstopCall, updateTknVal, bind_ok, pure_ok] at h
    obtain ⟨_, _, _, _, _, _, rfl⟩ := h
    exact bs_misc w hal w.backstop.lastDistro w.backstop.rewardZone w.backstop.poolEmis _ w.backstop.dropList

theorem step_bres {w w' : World} {op : Op} (hb : Base w) (inv : BInv w.time w.backstop) (hal : BAllow w)
    (h : step w op = .ok w') : BStepRes w op w' := by
  have hprot : w.isProtocol w.backstopAddr := .inr (.inl rfl)
  have nofor : ¬ (fun x => ¬ w.isProtocol x) w.backstopAddr := fun hn => hn hprot
  have mk : ∀ {F : Prop} {U : Address → Prop}, BMicros w.time F U (.of w) (.of w') ∧ BAllow w' →
      (F → ForeignClaim op) → (∀ u, U u → BTouches op u) → BStepRes w op w' :=
    fun h h1 h2 => ⟨h.1.mono h1 h2, h.2⟩
  have mk' : BMicros w.time False (fun _ => False) (.of w) (.of w') ∧ BAllow w' → BStepRes w op w' :=
    fun h => mk h False.elim fun _ => False.elim
  have pool : ∀ {w' : World} {p : Address} {auth : List Address} {c : Pool.Call}, w.poolAddr p = true →
      (∀ a ∈ auth, ¬ w.isProtocol a) → Pool.call w p auth c = .ok w' →
      BMicros w.time False (fun _ => False) (.of w) (.of w') ∧ BAllow w' := by
    intro w' p auth c hp ha h
    obtain ⟨h1, _, h2⟩ := psteps_micros (now := w.time) (F := False) (U := fun _ => False) (hb.pool_ne hp)
      (fun hm => ha _ hm hprot) hal (Pool.call_psteps h)
    exact ⟨h1, h2⟩
  cases op with
  | pool p auth c =>
    simp only [step, bind_ok, require_ok] at h
    obtain ⟨_, hp, _, ha, h⟩ := h
    exact mk' (pool hp ha h)
  | backstop auth c =>
    simp only [step, bind_ok, require_ok] at h
    obtain ⟨_, ha, h⟩ := h
    exact mk (call_micros hb inv hal ha h) id fun _ => id
  | emitter auth c =>
    simp only [step, bind_ok, require_ok] at h
    obtain ⟨_, ha, h⟩ := h
    obtain ⟨h1, _, h2, _⟩ := Emitter.call_wf (L := fun _ => False) (A := fun _ => False) h
    exact mk' (wf_bs h1 id id h2 hal)
  | factory auth c =>
    simp only [step, bind_ok, require_ok] at h
    obtain ⟨_, ha, h⟩ := h
    cases c with
    | «initialize» m =>
      simp only [factoryCall, Factory.init, bind_ok, pure_ok] at h
      obtain ⟨_, _, rfl⟩ := h
      exact mk' ⟨bs_same rfl rfl fun _ => rfl, hal⟩
    | deploy a s o r m =>
      simp only [factoryCall, Factory.deploy, bind_ok, pure_ok, Prod.exists, require_ok, requireAuth_ok,
        Prod.mk.injEq] at h
      obtain ⟨x, w1, ⟨_, hm, mt, _, _, hr, _, _, _, hp, _, hi, w2, hc, rfl, rfl⟩, rfl⟩ := h
      have hh := pool hp (auth := [a])
        (by intro x hx; simp only [List.mem_singleton] at hx; subst hx; exact ha _ hm) hc
      exact mk' hh
  | ledger dt ds =>
    simp only [step, pure_ok] at h
    subst h
    exact mk' ⟨bs_same rfl rfl fun _ => rfl, hal⟩
  | oracles o =>
    simp only [step, pure_ok] at h
    subst h
    exact mk' ⟨bs_same rfl rfl fun _ => rfl, hal⟩
  | comet s o =>
    simp only [step, pure_ok, bind_ok] at h
    obtain ⟨_, _, rfl⟩ := h
    exact mk' ⟨bs_same rfl rfl fun _ => rfl, hal⟩
  | tokenTransfer t s d a =>
    simp only [step, bind_ok, require_ok] at h
    obtain ⟨_, hs, h⟩ := h
    have r := transfer_res h
    exact mk' (wf_bs (.transfer (L := fun x => ¬ w.isProtocol x) (A := fun _ => False) hs r) nofor id (by rw [r.frame]) hal)
  | tokenMint t d a =>
    simp only [step, bind_ok, require_ok] at h
    obtain ⟨_, hs, h⟩ := h
    have r := mint_res h
    exact mk' (wf_bs (.mint (L := fun x => False) (A := fun _ => False) r) id id (by rw [r.frame]) hal)
  | tokenBurn t s a =>
    simp only [step, bind_ok, require_ok, pure_ok] at h
    obtain ⟨_, hs, _, ha, rfl⟩ := h
    have hne : w.backstopAddr ≠ s := by rintro rfl; exact hs hprot
    have hm : BMicros w.time False (fun _ => False) (.of w) (.of (w.setBalance t s (w.balance t s - a))) :=
      bs_same rfl rfl fun t' => by rw [balance_setBalance, if_neg (by simp [hne])]
    exact mk' ⟨hm, hal.of hm rfl fun t' x => .inl (by rw [allow_setBalance])⟩
  | tokenApprove t o s a e =>
    simp only [step, bind_ok, require_ok] at h
    obtain ⟨_, hs, h⟩ := h
    obtain ⟨_, rfl⟩ := approve_res h
    exact mk' (wf_bs (.setAllowance (L := fun x => False) (A := fun x => ¬ w.isProtocol x) _ hs) id nofor rfl hal)
  | expireAuction p t u =>
    simp only [step, pure_ok] at h
    subst h
    exact mk' ⟨bs_same rfl rfl fun _ => rfl, hal⟩
  | expireQueued p a =>
    simp only [step, pure_ok] at h
    subst h
    exact mk' ⟨bs_same rfl rfl fun _ => rfl, hal⟩
  | expireDropList =>
    simp only [step, pure_ok] at h
    subst h
    exact mk' (bs_misc w hal w.backstop.lastDistro w.backstop.rewardZone w.backstop.poolEmis w.backstop.lpVal none)

/-! ### histories -/

/-- the invariants of the backstop -/
structure BAll (w : World) : Prop where
  base : Base w
  inv : BInv w.time w.backstop
  allow : BAllow w
  funded : Funded (.of w)

theorem BAll.genesis {w : World} (h : Genesis w) : BAll w := by
  refine ⟨.of_genesis h, by rw [h.backstop]; exact .empty _, fun t s => .inl (h.allowances t _ s (.inr (.inl rfl))),
    ⟨fun _ => ?_, fun i hi => ?_⟩⟩
  · show (w.backstop.poolBal.sum _ = 0 ∧ _); rw [h.backstop]; exact ⟨rfl, rfl⟩
  · have : w.backstop.inst = some i := hi
    rw [h.backstop] at this; simp at this

theorem bmicros_funded {now : Nat} {F : Prop} {U : Address → Prop} {S S' : BS} (h : BMicros now F U S S')
    (inv : BInv now S.b) (f : Funded S) : Funded S' := by
  induction h with
  | refl => exact f
  | tail h1 h2 ih => exact bmicro_funded h2 (bmicros_inv h1 inv) ih

theorem BAll.step {w w' : World} {op : Op} (h : BAll w) (hs : Blend.step w op = .ok w') : BAll w' := by
  have r := step_res h.base hs
  have br := step_bres h.base h.inv h.allow hs
  exact ⟨r.base, (bmicros_inv br.micros h.inv).later r.time, br.allow, bmicros_funded br.micros h.inv h.funded⟩

theorem _root_.Blend.Reachable.ball {w : World} (h : Reachable w) : BAll w := by
  obtain ⟨w0, h0, hs⟩ := h
  exact hs.inv (fun _ _ _ h hs => h.step hs) (.genesis h0)

end Backstop
end Blend
