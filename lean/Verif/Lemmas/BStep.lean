import Verif.Lemmas.BDeployed
/-
  What one operation does to the backstop balances of one pool.
-/

namespace Blend
namespace Backstop

/-- all the ways in which an operation changes the backstop balances of pool `q` -/
inductive BalCase (w : World) (op : Op) (w' : World) (q : Address) : Prop
  | same : w'.backstop.getPoolBal q = w.backstop.getPoolBal q →
      (∀ u, w'.backstop.getUserBal q u = w.backstop.getUserBal q u) → BalCase w op w' q
  | pool {auth c} : op = .pool q auth c →
      (w'.backstop.getPoolBal q).shares = (w.backstop.getPoolBal q).shares →
      (w'.backstop.getPoolBal q).q4w = (w.backstop.getPoolBal q).q4w →
      (¬ Pool.CallEff c .draw → (w.backstop.getPoolBal q).tokens ≤ (w'.backstop.getPoolBal q).tokens) →
      (¬ Pool.CallEff c .donate → (w'.backstop.getPoolBal q).tokens ≤ (w.backstop.getPoolBal q).tokens) →
      (∀ u, w'.backstop.getUserBal q u = w.backstop.getUserBal q u) → BalCase w op w' q
  | claim {auth s ps d} : op = .backstop auth (.claim s ps d) → s ∈ auth →
      Credited d w.backstop { w.backstop with poolBal := w'.backstop.poolBal, userBal := w'.backstop.userBal } →
      (w.factory.deployed q = false → w'.backstop.getPoolBal q = w.backstop.getPoolBal q) → BalCase w op w' q
  | deposit {auth s a m} : op = .backstop auth (.deposit s q a) → DepositRes w auth s q a m w' →
      w.factory.deployed q = true →
      w'.backstop.getPoolBal q = { w.backstop.getPoolBal q with
        tokens := (w.backstop.getPoolBal q).tokens + a
        shares := (w.backstop.getPoolBal q).shares + m } →
      w'.backstop.getUserBal q s = { w.backstop.getUserBal q s with shares := (w.backstop.getUserBal q s).shares + m } →
      (∀ u, u ≠ s → w'.backstop.getUserBal q u = w.backstop.getUserBal q u) → BalCase w op w' q
  | queue {auth s a} : op = .backstop auth (.queueWithdrawal s q a) → QueueRes w auth s q a w' →
      w'.backstop.getPoolBal q = { w.backstop.getPoolBal q with q4w := (w.backstop.getPoolBal q).q4w + a } →
      w'.backstop.getUserBal q s = ⟨(w.backstop.getUserBal q s).shares - a,
          (w.backstop.getUserBal q s).q4w ++ [⟨a, w.time + 21 * 24 * 60 * 60⟩]⟩ →
      (∀ u, u ≠ s → w'.backstop.getUserBal q u = w.backstop.getUserBal q u) → BalCase w op w' q
  | dequeue {auth s a l taken r} : op = .backstop auth (.dequeueWithdrawal s q a) → DequeueRes w auth s q a w' →
      Dequeued w.time false (w.backstop.getUserBal q s).q4w a l 0 taken r →
      w'.backstop.getPoolBal q = { w.backstop.getPoolBal q with q4w := (w.backstop.getPoolBal q).q4w - a } →
      w'.backstop.getUserBal q s = ⟨(w.backstop.getUserBal q s).shares + a, l⟩ →
      (∀ u, u ≠ s → w'.backstop.getUserBal q u = w.backstop.getUserBal q u) → BalCase w op w' q
  | withdraw {auth s a tk l taken r} : op = .backstop auth (.withdraw s q a) → WithdrawRes w auth s q a tk w' →
      Dequeued w.time true (w.backstop.getUserBal q s).q4w a l 0 taken r →
      w'.backstop.getPoolBal q = ⟨(w.backstop.getPoolBal q).shares - a, (w.backstop.getPoolBal q).tokens - tk,
        (w.backstop.getPoolBal q).q4w - a⟩ →
      w'.backstop.getUserBal q s = { w.backstop.getUserBal q s with q4w := l } →
      (∀ u, u ≠ s → w'.backstop.getUserBal q u = w.backstop.getUserBal q u) → BalCase w op w' q

theorem Credited.congr {d : Address} {b b' c c' : BackstopState} (h : Credited d b b') (h1 : c.poolBal = b.poolBal)
    (h2 : c.userBal = b.userBal) (h3 : c'.poolBal = b'.poolBal) (h4 : c'.userBal = b'.userBal)
    (h5 : c' = { c with poolBal := c'.poolBal, userBal := c'.userBal }) : Credited d c c' := by
  refine ⟨h5, fun p => ?_, fun p => ?_, fun p => ?_, fun p => ?_, fun p u => ?_⟩
  · rw [getPoolBal_congr h1, getPoolBal_congr h3]; exact h.q4w p
  · rw [getPoolBal_congr h1, getPoolBal_congr h3]; exact h.tokens p
  · rw [getPoolBal_congr h1, getPoolBal_congr h3]; exact h.shares p
  · rw [getPoolBal_congr h1, getPoolBal_congr h3]; exact h.price p
  · rw [getUserBal_congr h2, getUserBal_congr h4]; exact h.users p u

theorem balCase {w w' : World} {op : Op} (ba : BAll w) (dep : Dep w) (h : step w op = .ok w') (q : Address) :
    BalCase w op w' q := by
  rcases step_other h with ⟨p, auth, c, rfl, e⟩ | ⟨auth, c, rfl, hc⟩ | e | e
  · by_cases hq : q = p
    · subst hq
      exact .pool rfl e.shares e.q4w e.draw e.donate fun u => getUserBal_congr e.userBal q u
    · exact .same (e.other q hq) fun u => getUserBal_congr e.userBal q u
  · have hauth : ∀ a ∈ auth, ¬ w.isProtocol a := by
      simp only [step, bind_ok, require_ok] at h
      exact h.choose_spec.1
    have nodep : ∀ {x}, x ∈ auth → w.factory.deployed x = true → False := fun hx hd =>
      hauth _ hx (protocol_pool (dep.pool _ hd).1)
    have sb : ∀ {b1 : BackstopState} {p s : Address} {pb : PoolBalance} {ub : UserBalance},
        SameBals w.backstop b1 → w'.backstop = setBal b1 p s pb ub → q ≠ p → BalCase w (.backstop auth c) w' q := by
      intro b1 p s pb ub hs hw hq
      refine .same ?_ fun u => ?_
      · rw [hw, getPoolBal_set, if_neg hq, hs.poolBal]
      · rw [hw, getUserBal_set, if_neg fun h => hq h.1, hs.userBal]
    have sb2 : ∀ {b1 : BackstopState} {s : Address} {pb : PoolBalance} {ub : UserBalance},
        SameBals w.backstop b1 → w'.backstop = setBal b1 q s pb ub →
        w'.backstop.getPoolBal q = pb ∧ w'.backstop.getUserBal q s = ub ∧
          ∀ u, u ≠ s → w'.backstop.getUserBal q u = w.backstop.getUserBal q u := by
      intro b1 s pb ub hs hw
      refine ⟨by rw [hw, getPoolBal_set, if_pos rfl], by rw [hw, getUserBal_set, if_pos ⟨rfl, rfl⟩], fun u hu => ?_⟩
      rw [hw, getUserBal_set, if_neg fun h => hu h.2, hs.userBal]
    cases call_cases ba.inv hc with
    | @deposit s p a m r =>
      obtain ⟨x, b1, i, w2, hu, _, _, hw⟩ := r.ex
      have hw := congrArg World.backstop hw
      by_cases e : q = p
      · subst e
        obtain ⟨k1, k2, k3⟩ := sb2 (emis_same hu) hw
        refine .deposit rfl r ?_ k1 k2 k3
        by_cases h0 : (w.backstop.getPoolBal q).shares = 0
        · exact r.known h0
        · exact dep.known q (.inl h0)
      · exact sb (emis_same hu) hw e
    | @queue s p a r =>
      obtain ⟨x, b1, hu, hw⟩ := r.ex
      have hw := congrArg World.backstop hw
      by_cases e : q = p
      · subst e
        obtain ⟨k1, k2, k3⟩ := sb2 (emis_same hu) hw
        exact .queue rfl r k1 k2 k3
      · exact sb (emis_same hu) hw e
    | @dequeue s p a r =>
      obtain ⟨x, b1, q', hu, hd, hw⟩ := r.ex
      have hw := congrArg World.backstop hw
      by_cases e : q = p
      · subst e
        obtain ⟨k1, k2, k3⟩ := sb2 (emis_same hu) hw
        obtain ⟨taken, r', hd⟩ := hd (ba.inv.user q s).amounts
        exact .dequeue rfl r hd k1 k2 k3
      · exact sb (emis_same hu) hw e
    | @withdraw s p a tk r =>
      obtain ⟨q', i, hi, hd, hw, _⟩ := r.ex
      by_cases e : q = p
      · subst e
        obtain ⟨k1, k2, k3⟩ := sb2 (b1 := w.backstop) rfl hw
        obtain ⟨taken, r', hd⟩ := hd (ba.inv.user q s).amounts
        exact .withdraw rfl r hd k1 k2 k3
      · exact sb (b1 := w.backstop) rfl hw e
    | @claim s ps d r =>
      obtain ⟨b1, hb1, cr⟩ := r.ex
      have e1 : b1.poolBal = w.backstop.poolBal := by rw [hb1]
      have e2 : b1.userBal = w.backstop.userBal := by rw [hb1]
      refine .claim rfl r.auth (cr.congr e1.symm e2.symm rfl rfl rfl) fun hd => ?_
      refine r.zero q ?_ ?_
      · by_contra hn; rw [dep.known q (.inr (.inr (.inl hn)))] at hd; simp at hd
      · by_contra hn; rw [dep.known q (.inl hn)] at hd; simp at hd
    | @draw p a d hp r =>
      obtain ⟨i, hi, t⟩ := r.ex
      have hz : (w.backstop.getPoolBal p).tokens = 0 := by
        by_contra hn; exact nodep hp (dep.known p (.inr (.inl hn)))
      have ha : a = 0 := by have := r.nonneg; have := r.le; omega
      have hw := congrArg World.backstop t.frame
      change w'.backstop = w.backstop.setPoolBal p _ at hw
      refine .same ?_ fun u => by rw [hw]; rfl
      rw [hw, getPoolBal_setPoolBal]
      split
      · rename_i e; subst e; subst ha; rw [sub_zero]
      · rfl
    | @donate s p a hs hp r =>
      exfalso
      by_cases h0 : (w.backstop.getPoolBal p).shares = 0
      · exact nodep hp (r.known h0)
      · exact nodep hp (dep.known p (.inl h0))
    | @reward a r' r =>
      rcases r.ex with ⟨_, rfl⟩ | ⟨_, _, _, _, rfl⟩
      · exact .same rfl fun _ => rfl
      · exact .same rfl fun _ => rfl
    | gulp hne hb hq' => exact .same (by rw [hb]; rfl) fun _ => by rw [hb]; rfl
    | init hn hb => exact .same (by rw [hb]; rfl) fun _ => by rw [hb]; rfl
    | @gulpPool p hp hb => exact .same (by rw [hb]; rfl) fun _ => by rw [hb]; rfl
    | lpVal hb => exact .same (by rw [hb]; rfl) fun _ => by rw [hb]; rfl
    | drop hb => exact .same (by rw [hb]) fun _ => by rw [hb]
  · exact .same (by rw [e]) fun _ => by rw [e]
  · exact .same (by rw [e]; rfl) fun _ => by rw [e]; rfl

theorem _root_.Blend.Reachable.balCase {w w' : World} {op : Op} (h : Reachable w) (hs : step w op = .ok w') (q : Address) :
    BalCase w op w' q := Backstop.balCase h.ball h.dep hs q

end Backstop
end Blend
