import Verif.Lemmas.SubmitView
/-
  When a submit does not fail with one of the special errors.
-/

namespace Blend
namespace Pool

theorem noErr_execute {E : Err → Bool} (hE : ∀ e, E e = true → Special e = true) {w : World} {p : Address} {auth : List Address}
    {sender spender dst : Address} {reqs : List Request}
    (hf : ∀ cache, sender ≠ p → Cache.load (w.pools p) = .ok cache →
      NoErr E (reqs.foldlM (processRequest p auth) (startState w p cache sender)))
    (hm : ∀ cache s, sender ≠ p → Cache.load (w.pools p) = .ok cache →
      reqs.foldlM (processRequest p auth) (startState w p cache sender) = .ok s →
      NoErr E (requireUnderMax s.fl.cache.config s.fl.user.pos (getPositions (w.pools p) sender).effectiveCount)) :
    NoErr E (executeSubmit w p auth sender spender dst reqs) := by
  have mono : ∀ {α : Type} {r : R α}, NoStatus r → NoErr E r := fun h => NoErr.mono h hE
  unfold executeSubmit buildActions
  refine NoErr.bind (mono (NoStatus.require rfl)) fun _ hreq => NoErr.bind (mono NoStatus.cacheLoad) fun cache hc => ?_
  rw [require_ok] at hreq
  have hne : sender ≠ p := fun e => hreq (.inl e)
  refine NoErr.bind ?_ fun s _ => ?_
  · exact NoErr.bind (hf cache hne hc) fun s hs => NoErr.bind (hm cache s hne hc hs) fun _ _ => NoErr.pure
  · refine mono ?_
    refine ns_healthCheck.bind fun _ => NoStatus.bind (NoStatus.foldlM fun _ _ => NoStatus.transfer) fun _ => ?_
    exact NoStatus.bind NoStatus.storeAll fun _ => NoStatus.bind (NoStatus.foldlM fun _ _ => NoStatus.transfer) fun _ => NoStatus.pure

theorem noErr_submit {E : Err → Bool} (hE : ∀ e, E e = true → Special e = true) {w : World} {p : Address} {auth : List Address}
    {sender spender dst : Address} {reqs : List Request}
    (h : w.poolAddr p = true → NoErr E (executeSubmit w p auth sender spender dst reqs)) :
    NoErr E (step w (.pool p auth (.submit sender spender dst reqs))) := by
  have mono : ∀ {α : Type} {r : R α}, NoStatus r → NoErr E r := fun h => NoErr.mono h hE
  unfold step call
  refine NoErr.bind (mono (NoStatus.require rfl)) fun _ hp => NoErr.bind (mono (NoStatus.require rfl)) fun _ _ => ?_
  rw [require_ok] at hp
  refine NoErr.bind (mono (NoStatus.require rfl)) fun _ _ => ?_
  dsimp only
  split
  · exact NoErr.bind (mono (NoStatus.require rfl)) fun _ _ => NoErr.bind (h hp) fun _ _ => NoErr.pure
  · exact NoErr.bind (h hp) fun _ _ => NoErr.pure

end Pool
end Blend
