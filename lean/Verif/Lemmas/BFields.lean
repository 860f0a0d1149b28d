import Verif.Lemmas.BStep
/-
  Fields of the backstop that only a few calls change.
-/
namespace Blend
namespace Backstop

/-- emission schedule, allotted emissions, reward zone and distribution time -/
structure SameSched (b b' : BackstopState) : Prop where
  rewardZone : b'.rewardZone = b.rewardZone
  emisCfg : b'.emisCfg = b.emisCfg
  received : b'.received = b.received

theorem sched_step {w w' : World} {op : Op} (ba : BAll w) (h : step w op = .ok w') :
    (SameSched w.backstop w'.backstop ∧ (∀ q, w'.backstop.poolEmis q = w.backstop.poolEmis q ∨ w'.backstop.poolEmis q = 0)) ∨
    (∃ auth a r, op = .backstop auth (.addReward a r) ∧ RewardRes w a r w') ∨
    ∃ auth, op = .backstop auth .gulpEmissions := by
  have same : ∀ {b1 : BackstopState} {p s : Address} {pb : PoolBalance} {ub : UserBalance},
      SameBals w.backstop b1 → w'.backstop = setBal b1 p s pb ub → SameSched w.backstop w'.backstop ∧
        (∀ q, w'.backstop.poolEmis q = w.backstop.poolEmis q ∨ w'.backstop.poolEmis q = 0) := by
    intro b1 p s pb ub hs hw
    unfold SameBals at hs
    rw [hw]
    refine ⟨⟨?_, ?_, ?_⟩, fun q => .inl ?_⟩
    · show b1.rewardZone = _; rw [hs]
    · show b1.emisCfg = _; rw [hs]
    · show b1.received = _; rw [hs]
    · show b1.poolEmis q = _; rw [hs]
  rcases step_other h with ⟨p, auth, c, rfl, e⟩ | ⟨auth, c, rfl, hc⟩ | e | e
  · refine .inl ⟨⟨e.rewardZone, e.emisCfg, e.received⟩, fun q => ?_⟩
    by_cases hq : q = p
    · subst hq; exact e.emis
    · exact .inl (e.poolEmis q hq)
  · cases call_cases ba.inv hc with
    | @deposit s p a m r =>
      obtain ⟨x, b1, i, w2, hu, _, _, hw⟩ := r.ex
      exact .inl (same (emis_same hu) (congrArg World.backstop hw))
    | @queue s p a r =>
      obtain ⟨x, b1, hu, hw⟩ := r.ex
      exact .inl (same (emis_same hu) (congrArg World.backstop hw))
    | @dequeue s p a r =>
      obtain ⟨x, b1, q', hu, hd, hw⟩ := r.ex
      exact .inl (same (emis_same hu) (congrArg World.backstop hw))
    | @withdraw s p a tk r =>
      obtain ⟨q', i, hi, hd, hw, _⟩ := r.ex
      exact .inl (same (b1 := w.backstop) rfl hw)
    | @claim s ps d r =>
      obtain ⟨b1, hb1, cr⟩ := r.ex
      rw [cr.frame]
      refine .inl ⟨⟨?_, ?_, ?_⟩, fun q => .inl ?_⟩
      · show b1.rewardZone = _; rw [hb1]
      · show b1.emisCfg = _; rw [hb1]
      · show b1.received = _; rw [hb1]
      · show b1.poolEmis q = _; rw [hb1]
    | @draw p a d hp r =>
      obtain ⟨i, hi, t⟩ := r.ex
      have hw := congrArg World.backstop t.frame
      rw [hw]
      exact .inl ⟨⟨rfl, rfl, rfl⟩, fun _ => .inl rfl⟩
    | @donate s p a hs hp r =>
      obtain ⟨i, w1, hi, t, hw⟩ := r.ex
      have hw := congrArg World.backstop hw
      rw [hw]
      exact .inl ⟨⟨rfl, rfl, rfl⟩, fun _ => .inl rfl⟩
    | @reward a r' r => exact .inr (.inl ⟨auth, a, r', rfl, r⟩)
    | gulp hne hb hq' => exact .inr (.inr ⟨auth, rfl⟩)
    | init hn hb => rw [hb]; exact .inl ⟨⟨rfl, rfl, rfl⟩, fun _ => .inl rfl⟩
    | @gulpPool p hp hb =>
      rw [hb]; refine .inl ⟨⟨rfl, rfl, rfl⟩, fun q => ?_⟩
      simp only [upd_apply]; split <;> simp
    | lpVal hb => rw [hb]; exact .inl ⟨⟨rfl, rfl, rfl⟩, fun _ => .inl rfl⟩
    | drop hb => rw [hb]; exact .inl ⟨⟨rfl, rfl, rfl⟩, fun _ => .inl rfl⟩
  · rw [e]; exact .inl ⟨⟨rfl, rfl, rfl⟩, fun _ => .inl rfl⟩
  · rw [e]; exact .inl ⟨⟨rfl, rfl, rfl⟩, fun _ => .inl rfl⟩

end Backstop
end Blend
