import Verif.Lemmas.BEmis
/-
  Small steps of the backstop and the invariants they preserve.
-/

namespace Blend
namespace Backstop

/-- total of a withdrawal queue -/
def qsum (l : List Q4W) : Int := (l.map Q4W.amount).sum

@[simp] theorem qsum_nil : qsum [] = 0 := rfl
@[simp] theorem qsum_cons (e : Q4W) (l : List Q4W) : qsum (e :: l) = e.amount + qsum l := by simp [qsum]
@[simp] theorem qsum_append (l l' : List Q4W) : qsum (l ++ l') = qsum l + qsum l' := by simp [qsum]

theorem qsum_nonneg {l : List Q4W} (h : ∀ e ∈ l, 0 ≤ e.amount) : 0 ≤ qsum l := by
  induction l with
  | nil => simp
  | cons e l ih =>
    rw [qsum_cons]
    have := h e (by simp)
    have := ih fun x hx => h x (by simp [hx])
    omega

/-- what taking `amount` from the front of a queue leaves -/
structure Dequeued (now : Nat) (req : Bool) (l : List Q4W) (amount : Int) (l' : List Q4W) (left : Int)
    (taken : List Q4W) (r : Int) : Prop where
  exp : ∀ e ∈ taken, req = true → e.exp ≤ now
  nonneg : 0 ≤ left ∧ 0 ≤ r
  sum : qsum taken + r + left = amount
  rest : (r = 0 ∧ l = taken ++ l' ∧ (0 < left → l' = [])) ∨
    (left = 0 ∧ ∃ e t, l = taken ++ e :: t ∧ r < e.amount ∧ (req = true → e.exp ≤ now) ∧
      l' = { e with amount := e.amount - r } :: t)

theorem dequeueLoop_ok {now : Nat} {req : Bool} : ∀ {l l' : List Q4W} {amount left : Int},
    (∀ e ∈ l, 0 ≤ e.amount) → 0 ≤ amount → dequeueLoop now req l amount = .ok (l', left) →
    ∃ taken r, Dequeued now req l amount l' left taken r := by
  intro l
  induction l with
  | nil =>
    intro l' amount left _ h0 h
    simp only [dequeueLoop, pure_ok, Prod.mk.injEq] at h
    obtain ⟨rfl, rfl⟩ := h
    exact ⟨[], 0, by simp, ⟨h0, le_refl _⟩, by simp, .inl ⟨rfl, by simp, fun _ => rfl⟩⟩
  | cons q t ih =>
    intro l' amount left hn h0 h
    simp only [dequeueLoop, ite_ok, bind_ok, chk_ok, pure_ok, Prod.mk.injEq, error_ok, and_false, or_false] at h
    obtain ⟨hexp, h⟩ := h
    have hexp' : req = true → q.exp ≤ now := by
      intro e; rcases hexp with h | h
      · rw [e] at h; simp at h
      · exact h
    have hq := hn q (by simp)
    rcases h with ⟨hgt, _, ⟨_, rfl⟩, rfl, rfl⟩ | ⟨hgt, ⟨heq, rfl, rfl⟩ | ⟨hne, l2, ⟨_, rfl⟩, h⟩⟩
    · exact ⟨[], amount, by simp, ⟨le_refl _, h0⟩, by simp,
        .inr ⟨rfl, q, t, rfl, hgt, hexp', rfl⟩⟩
    · exact ⟨[q], 0, by simpa using hexp', ⟨le_refl _, le_refl _⟩, by simp [heq],
        .inl ⟨rfl, rfl, fun h => absurd h (lt_irrefl _)⟩⟩
    · obtain ⟨taken, r, d⟩ := ih (fun e he => hn e (by simp [he])) (by omega) h
      refine ⟨q :: taken, r, ?_, d.nonneg, by have := d.sum; simp only [qsum_cons]; omega, ?_⟩
      · intro e he hr
        rcases List.mem_cons.1 he with rfl | he
        · exact hexp' hr
        · exact d.exp e he hr
      · rcases d.rest with ⟨h1, h2, h3⟩ | ⟨h1, e, t', h2, h3, h4, h5⟩
        · exact .inl ⟨h1, by rw [h2]; rfl, h3⟩
        · exact .inr ⟨h1, e, t', by rw [h2]; rfl, h3, h4, h5⟩

/-- a user's balance in one pool is well formed: nothing negative, at most 21 queue entries, ordered by
unlock time, which is at most 21 days away -/
structure QOk (now : Nat) (ub : UserBalance) : Prop where
  shares : 0 ≤ ub.shares
  amounts : ∀ e ∈ ub.q4w, 0 ≤ e.amount
  len : ub.q4w.length ≤ 21
  sorted : ub.q4w.Pairwise fun a b => a.exp ≤ b.exp
  exp : ∀ e ∈ ub.q4w, e.exp ≤ now + 21 * 24 * 60 * 60

theorem QOk.default (now : Nat) : QOk now ⟨0, []⟩ :=
  ⟨le_refl _, by simp, by simp, by simp, by simp⟩

theorem QOk.later {now now' : Nat} {ub : UserBalance} (h : QOk now ub) (ht : now ≤ now') : QOk now' ub :=
  ⟨h.shares, h.amounts, h.len, h.sorted, fun e he => by have := h.exp e he; omega⟩

theorem QOk.add {now : Nat} {ub : UserBalance} (h : QOk now ub) {n : Int} (hn : 0 ≤ n) :
    QOk now { ub with shares := ub.shares + n } :=
  ⟨by have := h.shares; show 0 ≤ ub.shares + n; omega, h.amounts, h.len, h.sorted, h.exp⟩

theorem QOk.dequeue {now : Nat} {ub : UserBalance} (h : QOk now ub) {req : Bool} {amount left r : Int}
    {l' taken : List Q4W} (d : Dequeued now req ub.q4w amount l' left taken r) :
    QOk now { ub with q4w := l' } := by
  obtain ⟨d1, d2, d3, d4⟩ := d
  rcases d4 with ⟨_, h2, _⟩ | ⟨_, e, t, h2, h3, h4, rfl⟩
  · have hs := h.sorted; rw [h2] at hs
    refine ⟨h.shares, fun e he => h.amounts e (by rw [h2]; simp [he]), ?_,
      (List.pairwise_append.1 hs).2.1, fun e he => h.exp e (by rw [h2]; simp [he])⟩
    have := h.len; rw [h2] at this; simp at this; show l'.length ≤ 21; omega
  · have hs := h.sorted; rw [h2] at hs
    have hs' := (List.pairwise_append.1 hs).2.1
    rw [List.pairwise_cons] at hs'
    refine ⟨h.shares, ?_, ?_, ?_, ?_⟩
    · intro x hx
      rcases List.mem_cons.1 hx with rfl | hx
      · show 0 ≤ e.amount - r; omega
      · exact h.amounts x (by rw [h2]; simp [hx])
    · have := h.len; rw [h2] at this; simp at this
      simp only [List.length_cons]; omega
    · rw [List.pairwise_cons]; exact ⟨fun x hx => hs'.1 x hx, hs'.2⟩
    · intro x hx
      rcases List.mem_cons.1 hx with rfl | hx
      · exact h.exp e (by rw [h2]; simp)
      · exact h.exp x (by rw [h2]; simp [hx])

theorem Dequeued.qsum {now : Nat} {req : Bool} {l l' : List Q4W} {amount left r : Int} {taken : List Q4W}
    (d : Dequeued now req l amount l' left taken r) : qsum l' = qsum l - (amount - left) := by
  obtain ⟨d1, d2, d3, d4⟩ := d
  rcases d4 with ⟨_, h2, _⟩ | ⟨_, e, t, h2, h3, h4, rfl⟩
  · rw [h2]; simp; omega
  · rw [h2]; simp; omega

/-- the backstop's storage, its token balances, and LP tokens minted to it that are not credited yet -/
structure BS where
  b : BackstopState
  vb : Address → Int
  fl : Int := 0

/-- seen from the outside -/
def BS.of (w : World) : BS := ⟨w.backstop, fun t => w.balance t w.backstopAddr, 0⟩

/-- write a pool's and a user's balance -/
def setBal (b : BackstopState) (p u : Address) (pb : PoolBalance) (ub : UserBalance) : BackstopState :=
  { b with
    poolBal := b.poolBal.set p pb
    userBal := upd b.userBal p ((b.userBal p).set u ub) }

/-- the user's emission entry is up to date with the pool's index -/
def UpToDate (b : BackstopState) (p u : Address) : Prop :=
  ∀ cfg, b.emisCfg p = some cfg → ∃ d x, b.emisData p = some d ∧ (b.userEmis p).get u = some x ∧
    x.index = d.index

/-- One small step of the backstop. `U` are the accounts whose balances may change, `F` says that
claims may be credited to an account whose emissions are not up to date. -/
inductive BMicro (now : Nat) (F : Prop) (U : Address → Prop) : BS → BS → Prop
  | vb (S : BS) (vb') : (∀ t, S.vb t ≤ vb' t ∨ ∃ i, S.b.inst = some i ∧ t = i.blnd) →
      BMicro now F U S { S with vb := vb' }
  | init (S : BS) (i dl ld) : S.b.inst = none → (∀ t, 0 ≤ S.vb t) →
      BMicro now F U S { S with b := { S.b with inst := some i, dropList := dl, lastDistro := ld } }
  | misc (S : BS) (ld rz pe lv dl) :
      BMicro now F U S { S with b := { S.b with
        lastDistro := ld, rewardZone := rz, poolEmis := pe, lpVal := lv, dropList := dl } }
  | deposit (S : BS) (p u amt m x b1 i vb') : U u → 0 ≤ amt → S.b.inst = some i →
      updateEmissions S.b now p (S.b.getPoolBal p) u (S.b.getUserBal p u) false = .ok (x, b1) →
      toShares (S.b.getPoolBal p) amt = .ok m → m ≠ 0 →
      (∀ t, S.vb t + (if t = i.backstopToken then amt else 0) ≤ vb' t) →
      BMicro now F U S ⟨setBal b1 p u
        { S.b.getPoolBal p with
          tokens := (S.b.getPoolBal p).tokens + amt
          shares := (S.b.getPoolBal p).shares + m }
        { S.b.getUserBal p u with shares := (S.b.getUserBal p u).shares + m }, vb', S.fl⟩
  | queue (S : BS) (p u amt x b1) : U u → 0 ≤ amt → amt ≤ (S.b.getUserBal p u).shares →
      (S.b.getUserBal p u).q4w.length < 21 →
      updateEmissions S.b now p (S.b.getPoolBal p) u (S.b.getUserBal p u) false = .ok (x, b1) →
      BMicro now F U S ⟨setBal b1 p u
        { S.b.getPoolBal p with q4w := (S.b.getPoolBal p).q4w + amt }
        ⟨(S.b.getUserBal p u).shares - amt,
          (S.b.getUserBal p u).q4w ++ [⟨amt, now + 21 * 24 * 60 * 60⟩]⟩, S.vb, S.fl⟩
  | dequeue (S : BS) (p u amt x b1 q) : U u → 0 ≤ amt → amt ≤ (S.b.getPoolBal p).q4w →
      updateEmissions S.b now p (S.b.getPoolBal p) u (S.b.getUserBal p u) false = .ok (x, b1) →
      ((∀ e ∈ (S.b.getUserBal p u).q4w, 0 ≤ e.amount) →
        ∃ taken r, Dequeued now false (S.b.getUserBal p u).q4w amt q 0 taken r) →
      BMicro now F U S ⟨setBal b1 p u
        { S.b.getPoolBal p with q4w := (S.b.getPoolBal p).q4w - amt }
        ⟨(S.b.getUserBal p u).shares + amt, q⟩, S.vb, S.fl⟩
  | withdraw (S : BS) (p u amt tk q i vb') : U u → 0 ≤ amt → S.b.inst = some i →
      tk ≤ (S.b.getPoolBal p).tokens → amt ≤ (S.b.getPoolBal p).shares → amt ≤ (S.b.getPoolBal p).q4w →
      toTokens (S.b.getPoolBal p) amt = .ok tk → 0 < tk →
      ((∀ e ∈ (S.b.getUserBal p u).q4w, 0 ≤ e.amount) →
        ∃ taken r, Dequeued now true (S.b.getUserBal p u).q4w amt q 0 taken r) →
      (∀ t, S.vb t - (if t = i.backstopToken then tk else 0) ≤ vb' t) →
      BMicro now F U S ⟨setBal S.b p u
        ⟨(S.b.getPoolBal p).shares - amt, (S.b.getPoolBal p).tokens - tk, (S.b.getPoolBal p).q4w - amt⟩
        { S.b.getUserBal p u with q4w := q }, vb', S.fl⟩
  | draw (S : BS) (p amt i vb') : 0 ≤ amt → amt ≤ (S.b.getPoolBal p).tokens → S.b.inst = some i →
      (∀ t, S.vb t - (if t = i.backstopToken then amt else 0) ≤ vb' t) →
      BMicro now F U S ⟨S.b.setPoolBal p
        { S.b.getPoolBal p with tokens := (S.b.getPoolBal p).tokens - amt }, vb', S.fl⟩
  | donate (S : BS) (p amt i vb') : 0 ≤ amt → S.b.inst = some i →
      (∀ t, S.vb t + (if t = i.backstopToken then amt else 0) ≤ vb' t) →
      BMicro now F U S ⟨S.b.setPoolBal p
        { S.b.getPoolBal p with tokens := (S.b.getPoolBal p).tokens + amt }, vb', S.fl⟩
  | claim (S : BS) (p u x b1) : U u →
      updateEmissions S.b now p (S.b.getPoolBal p) u (S.b.getUserBal p u) true = .ok (x, b1) →
      BMicro now F U S { S with b := { b1 with claimed := upd b1.claimed p (b1.claimed p + x) } }
  | mintLp (S : BS) (amt i vb') : 0 ≤ amt → S.b.inst = some i → 
      (∀ t, t ≠ i.blnd → S.vb t + (if t = i.backstopToken then amt else 0) ≤ vb' t) →
      BMicro now F U S ⟨S.b, vb', S.fl + amt⟩
  | credit (S : BS) (p u dep m i) : U u → S.b.inst = some i → 0 ≤ dep → (F ∨ UpToDate S.b p u) →
      toShares (S.b.getPoolBal p) dep = .ok m →
      BMicro now F U S ⟨setBal S.b p u
        { S.b.getPoolBal p with
          tokens := (S.b.getPoolBal p).tokens + dep
          shares := (S.b.getPoolBal p).shares + m }
        { S.b.getUserBal p u with shares := (S.b.getUserBal p u).shares + m }, S.vb, S.fl - dep⟩
  | settle (S : BS) : 0 ≤ S.fl → BMicro now F U S { S with fl := 0 }
  | gulp (S : BS) (p n b1) : 0 ≤ n → setEmisConfig S.b now p (S.b.getPoolBal p) n = .ok b1 →
      BMicro now F U S { S with b := b1 }

/-- any number of small steps -/
inductive BMicros (now : Nat) (F : Prop) (U : Address → Prop) : BS → BS → Prop
  | refl (S) : BMicros now F U S S
  | tail {S S' S''} : BMicros now F U S S' → BMicro now F U S' S'' → BMicros now F U S S''

theorem BMicros.trans {now : Nat} {F : Prop} {U : Address → Prop} {a b c : BS} (h1 : BMicros now F U a b)
    (h2 : BMicros now F U b c) : BMicros now F U a c := by
  induction h2 with
  | refl => exact h1
  | tail _ hs ih => exact .tail ih hs

theorem BMicros.one {now : Nat} {F : Prop} {U : Address → Prop} {a b : BS} (h : BMicro now F U a b) :
    BMicros now F U a b := .tail (.refl _) h

/-! ### balances -/

/-- balances and emission entries of the backstop are consistent -/
structure BInv (now : Nat) (b : BackstopState) : Prop where
  pool : ∀ p, 0 ≤ (b.getPoolBal p).tokens
  user : ∀ p u, QOk now (b.getUserBal p u)
  unq : ∀ p, (b.getPoolBal p).shares - (b.getPoolBal p).q4w = (b.userBal p).sum fun _ ub => ub.shares
  queued : ∀ p, (b.getPoolBal p).q4w = (b.userBal p).sum fun _ ub => qsum ub.q4w
  unset : ∀ p, b.emisCfg p = none → b.emisData p = none ∧ b.userEmis p = .empty ∧ b.received p = 0 ∧
    b.claimed p = 0
  isSet : ∀ p cfg, b.emisCfg p = some cfg → ∃ d, b.emisData p = some d ∧ d.lastTime ≤ now ∧ 0 ≤ d.index ∧
    UserOk d.index (b.userEmis p)

theorem BInv.later {now now' : Nat} {b : BackstopState} (h : BInv now b) (ht : now ≤ now') : BInv now' b :=
  ⟨h.pool, fun p u => (h.user p u).later ht, h.unq, h.queued, h.unset, fun p cfg hc => by
    obtain ⟨d, h1, h2, h3⟩ := h.isSet p cfg hc
    exact ⟨d, h1, by omega, h3⟩⟩

theorem BInv.empty (now : Nat) : BInv now {} :=
  ⟨fun _ => le_refl _, fun _ _ => .default now, fun _ => rfl, fun _ => rfl, fun _ _ => ⟨rfl, rfl, rfl, rfl⟩, by simp⟩

theorem getPoolBal_set (b : BackstopState) (p u q : Address) (pb : PoolBalance) (ub : UserBalance) :
    (setBal b p u pb ub).getPoolBal q = if q = p then pb else b.getPoolBal q := by
  unfold BackstopState.getPoolBal setBal
  simp only [SMap.get_set]
  split <;> rfl

theorem getUserBal_set (b : BackstopState) (p u q v : Address) (pb : PoolBalance) (ub : UserBalance) :
    (setBal b p u pb ub).getUserBal q v = if q = p ∧ v = u then ub else b.getUserBal q v := by
  unfold BackstopState.getUserBal setBal
  simp only [upd_apply]
  by_cases hq : q = p
  · subst hq
    simp only [if_true, SMap.get_set, true_and]
    split <;> rfl
  · simp [hq]

theorem sum_userBal_set (b : BackstopState) (p u q : Address) (pb : PoolBalance) (ub : UserBalance)
    (f : UserBalance → Int) (hf : f ⟨0, []⟩ = 0) :
    ((setBal b p u pb ub).userBal q).sum (fun _ x => f x) =
      (b.userBal q).sum (fun _ x => f x) + if q = p then f ub - f (b.getUserBal p u) else 0 := by
  unfold setBal
  simp only [upd_apply]
  by_cases hq : q = p
  · subst hq
    simp only [if_true]
    rw [SMap.sum_set]
    unfold BackstopState.getUserBal
    cases (b.userBal q).get u with
    | none => simp [hf]
    | some x => simp; ring
  · simp [hq]

theorem BInv.shares_nonneg {now : Nat} {b : BackstopState} (h : BInv now b) (p : Address) :
    0 ≤ (b.getPoolBal p).q4w ∧ (b.getPoolBal p).q4w ≤ (b.getPoolBal p).shares := by
  have h1 := h.unq p
  have h2 := h.queued p
  have e : ∀ u ub, (b.userBal p).get u = some ub → b.getUserBal p u = ub := by
    intro u ub hu; unfold BackstopState.getUserBal; rw [hu]; rfl
  have h3 : 0 ≤ (b.userBal p).sum fun _ ub => ub.shares := SMap.sum_nonneg fun u ub hu => by
    have := (h.user p u).shares; rwa [e u ub hu] at this
  have h4 : 0 ≤ (b.userBal p).sum fun _ ub => qsum ub.q4w := SMap.sum_nonneg fun u ub hu => by
    have := qsum_nonneg (h.user p u).amounts; rwa [e u ub hu] at this
  omega

/-- balances of one pool and user change consistently -/
theorem BInv.setBal {now : Nat} {b : BackstopState} (h : BInv now b) {p u : Address} {pb : PoolBalance}
    {ub : UserBalance} (h1 : 0 ≤ pb.tokens) (h2 : QOk now ub)
    (h3 : pb.shares - pb.q4w = (b.getPoolBal p).shares - (b.getPoolBal p).q4w + (ub.shares - (b.getUserBal p u).shares))
    (h4 : pb.q4w = (b.getPoolBal p).q4w + (qsum ub.q4w - qsum (b.getUserBal p u).q4w)) :
    BInv now (Backstop.setBal b p u pb ub) := by
  refine ⟨fun q => ?_, fun q v => ?_, fun q => ?_, fun q => ?_, h.unset, h.isSet⟩
  · rw [getPoolBal_set]; split
    · exact h1
    · exact h.pool q
  · rw [getUserBal_set]; split
    · exact h2
    · exact h.user q v
  · rw [getPoolBal_set, sum_userBal_set _ _ _ _ _ _ (fun x => x.shares) rfl, ← h.unq q]
    split
    · rename_i e; rw [e]; exact h3
    · omega
  · rw [getPoolBal_set, sum_userBal_set _ _ _ _ _ _ (fun x => qsum x.q4w) rfl, ← h.queued q]
    split
    · rename_i e; rw [e]; exact h4
    · omega

theorem BInv.setTokens {now : Nat} {b : BackstopState} (h : BInv now b) {p : Address} {tk : Int} (htk : 0 ≤ tk) :
    BInv now (b.setPoolBal p { b.getPoolBal p with tokens := tk }) := by
  have e : ∀ q, (b.setPoolBal p { b.getPoolBal p with tokens := tk }).getPoolBal q =
      if q = p then { b.getPoolBal p with tokens := tk } else b.getPoolBal q := by
    intro q
    unfold BackstopState.getPoolBal BackstopState.setPoolBal
    simp only [SMap.get_set]
    split <;> rfl
  refine ⟨fun q => ?_, h.user, fun q => ?_, fun q => ?_, h.unset, h.isSet⟩
  · rw [e]; split
    · exact htk
    · exact h.pool q
  · rw [e]; split
    · rename_i hq; subst hq; exact h.unq q
    · exact h.unq q
  · rw [e]; split
    · rename_i hq; subst hq; exact h.queued q
    · exact h.queued q

/-- an emission update -/
theorem BInv.emis {now : Nat} {b b1 : BackstopState} (h : BInv now b) {p u : Address} {claim : Bool} {x : Int}
    (hu : updateEmissions b now p (b.getPoolBal p) u (b.getUserBal p u) claim = .ok (x, b1)) :
    BInv now { b1 with claimed := upd b1.claimed p (b1.claimed p + x) } ∧ b1.poolBal = b.poolBal ∧
      b1.userBal = b.userBal ∧ b1.inst = b.inst ∧ (claim = false → x = 0) ∧ 0 ≤ x ∧ b1.claimed = b.claimed ∧
      UpToDate b1 p u := by
  rcases updateEmissions_ok hu with ⟨hc, rfl, rfl⟩ | ⟨cfg, ed, d, y, r⟩
  · have : upd b1.claimed p (b1.claimed p + 0) = b1.claimed := by rw [add_zero]; exact upd_eq_self rfl
    rw [this]
    exact ⟨h, rfl, rfl, rfl, fun _ => rfl, le_refl _, rfl, fun cfg hcfg => by rw [hc] at hcfg; simp at hcfg⟩
  · obtain ⟨d0, k1, k2, k3, k4⟩ := h.isSet p cfg r.config
    rw [r.data] at k1; cases k1
    obtain ⟨i1, i2, i3, _⟩ := r.index k2
    obtain ⟨a1, a2, _⟩ := r.acc (h.user p u).shares (k4.mono i1) (by omega)
    have he := r.eq
    subst he
    refine ⟨⟨h.pool, h.user, h.unq, h.queued, fun q hq => ?_, fun q cf hq => ?_⟩, rfl, rfl, rfl, r.noclaim, a2, rfl, ?_⟩
    · have hne : q ≠ p := by rintro rfl; simp only at hq; rw [r.config] at hq; simp at hq
      simp only [upd_ne hne]
      exact h.unset q hq
    · by_cases hqp : q = p
      · subst hqp
        refine ⟨d, by simp, i3, by omega, ?_⟩
        simp only [upd_same]
        exact (k4.mono i1).set ⟨by rw [r.xi]; omega, by rw [r.xi], a1⟩
      · simp only [upd_ne hqp]
        exact h.isSet q cf hq
    · intro cf _
      exact ⟨d, y, by simp, by simp, r.xi⟩

theorem BInv.emis' {now : Nat} {b b1 : BackstopState} (h : BInv now b) {p u : Address} {x : Int}
    (hu : updateEmissions b now p (b.getPoolBal p) u (b.getUserBal p u) false = .ok (x, b1)) :
    BInv now b1 ∧ b1.poolBal = b.poolBal ∧ b1.userBal = b.userBal ∧ b1.inst = b.inst := by
  obtain ⟨h1, h2, h3, h4, h5, _⟩ := h.emis hu
  have hx := h5 rfl
  subst hx
  have : upd b1.claimed p (b1.claimed p + 0) = b1.claimed := by rw [add_zero]; exact upd_eq_self rfl
  rw [this] at h1
  exact ⟨h1, h2, h3, h4⟩

theorem toShares_nonneg {now : Nat} {b : BackstopState} (h : BInv now b) {p : Address} {amt m : Int}
    (ha : 0 ≤ amt) (hm : toShares (b.getPoolBal p) amt = .ok m) : 0 ≤ m := by
  have h1 := h.shares_nonneg p
  have h2 := h.pool p
  unfold toShares at hm
  simp only [ite_ok, pure_ok] at hm
  rcases hm with ⟨_, rfl⟩ | ⟨hs, hm⟩
  · exact ha
  · have hne : (b.getPoolBal p).tokens ≠ 0 := by
      intro e
      unfold fixedMulFloor mulDivFloor at hm
      rw [e] at hm
      simp only [bind_ok, require_ok, ne_eq, not_true_eq_false, false_and, exists_false, and_false] at hm
    exact mulDivFloor_nonneg hm (by omega) (mul_nonneg ha (by omega))

theorem getPoolBal_congr {b b' : BackstopState} (h : b'.poolBal = b.poolBal) (p : Address) :
    b'.getPoolBal p = b.getPoolBal p := by unfold BackstopState.getPoolBal; rw [h]
theorem getUserBal_congr {b b' : BackstopState} (h : b'.userBal = b.userBal) (p u : Address) :
    b'.getUserBal p u = b.getUserBal p u := by unfold BackstopState.getUserBal; rw [h]

theorem bmicro_inv {now : Nat} {F : Prop} {U : Address → Prop} {S S' : BS} (h : BMicro now F U S S')
    (inv : BInv now S.b) : BInv now S'.b := by
  cases h with
  | vb vb' h => exact inv
  | init i dl ld h h' => exact ⟨inv.pool, inv.user, inv.unq, inv.queued, inv.unset, inv.isSet⟩
  | misc ld rz pe lv dl => exact ⟨inv.pool, inv.user, inv.unq, inv.queued, inv.unset, inv.isSet⟩
  | deposit p u amt m x b1 i vb' h0 h1 h2 h3 h4 h5 h6 =>
    obtain ⟨k1, k2, k3, k4⟩ := inv.emis' h3
    have hm := toShares_nonneg inv h1 h4
    refine k1.setBal ?_ ((inv.user p u).add hm) ?_ ?_
    · have := inv.pool p; show 0 ≤ (S.b.getPoolBal p).tokens + amt; omega
    · rw [getPoolBal_congr k2, getUserBal_congr k3]; simp; ring
    · rw [getPoolBal_congr k2, getUserBal_congr k3]; simp
  | queue p u amt x b1 h0 h1 h2 h3 h4 =>
    obtain ⟨k1, k2, k3, k4⟩ := inv.emis' h4
    have q := inv.user p u
    refine k1.setBal (inv.pool p) ⟨?_, ?_, ?_, ?_, ?_⟩ ?_ ?_
    · show 0 ≤ (S.b.getUserBal p u).shares - amt; omega
    · intro e he
      rcases List.mem_append.1 he with he | he
      · exact q.amounts e he
      · simp at he; rw [he]; exact h1
    · simp; omega
    · rw [List.pairwise_append]
      refine ⟨q.sorted, by simp, fun a ha b hb => ?_⟩
      simp at hb; rw [hb]; exact q.exp a ha
    · intro e he
      rcases List.mem_append.1 he with he | he
      · exact q.exp e he
      · simp at he; rw [he]
    · rw [getPoolBal_congr k2, getUserBal_congr k3]; simp; ring
    · rw [getPoolBal_congr k2, getUserBal_congr k3]; simp
  | dequeue p u amt x b1 q h0 h1 h2 h3 h4 =>
    obtain ⟨k1, k2, k3, k4⟩ := inv.emis' h3
    obtain ⟨tk, r, d⟩ := h4 (inv.user p u).amounts
    have hq := (inv.user p u).dequeue d
    have hs := d.qsum
    refine k1.setBal (inv.pool p) ((hq.add h1)) ?_ ?_
    · rw [getPoolBal_congr k2, getUserBal_congr k3]; simp; ring
    · rw [getPoolBal_congr k2, getUserBal_congr k3]; simp only; omega
  | withdraw p u amt tk q i vb' h0 h1 h2 h3 h4 h5 h6 h7 h8 h9 =>
    obtain ⟨tk', r, d⟩ := h8 (inv.user p u).amounts
    have hq := (inv.user p u).dequeue d
    have hs := d.qsum
    refine inv.setBal ?_ hq ?_ ?_
    · show 0 ≤ (S.b.getPoolBal p).tokens - tk; omega
    · simp
    · simp only; omega
  | draw p amt i vb' h0 h1 h2 h3 => exact inv.setTokens (by omega)
  | donate p amt i vb' h0 h1 h2 => exact inv.setTokens (by have := inv.pool p; omega)
  | claim p u x b1 h0 h1 => exact (inv.emis h1).1
  | mintLp amt i vb' h0 h1 h2 => exact inv
  | credit p u dep m i h0 h1 h2 h3 h4 =>
    have hm := toShares_nonneg inv h2 h4
    refine inv.setBal ?_ ((inv.user p u).add hm) ?_ ?_
    · have := inv.pool p; show 0 ≤ (S.b.getPoolBal p).tokens + dep; omega
    · simp; ring
    · simp
  | settle h => exact inv
  | gulp p n b1 h0 h1 =>
    obtain ⟨d', eps, rfl, k1, k2⟩ := setEmisConfig_ok h1
    refine ⟨inv.pool, inv.user, inv.unq, inv.queued, fun q hq => ?_, fun q cf hq => ?_⟩
    · have hne : q ≠ p := by rintro rfl; simp at hq
      simp only [upd_ne hne] at hq ⊢
      exact inv.unset q hq
    · by_cases hqp : q = p
      · subst hqp
        simp only [upd_same]
        refine ⟨d', rfl, by omega, ?_⟩
        rcases k2 with ⟨c1, c2, _⟩ | ⟨cfg, ed, c1, c2, c3⟩
        · rw [(inv.unset q c1).2.1]
          exact ⟨by omega, fun u x hx => by simp at hx⟩
        · obtain ⟨d0, e1, e2, e3, e4⟩ := inv.isSet q cfg c1
          rw [c2] at e1; cases e1
          have := (c3 e2).1
          exact ⟨by omega, e4.mono this⟩
      · simp only [upd_ne hqp] at hq ⊢
        exact inv.isSet q cf hq

theorem bmicros_inv {now : Nat} {F : Prop} {U : Address → Prop} {S S' : BS} (h : BMicros now F U S S')
    (inv : BInv now S.b) : BInv now S'.b := by
  induction h with
  | refl => exact inv
  | tail _ h ih => exact bmicro_inv h ih

/-! ### the LP tokens -/

/-- the LP tokens recorded for the pools, and those in flight, are held by the backstop -/
structure Funded (S : BS) : Prop where
  before : S.b.inst = none → S.b.poolBal.sum (fun _ pb => pb.tokens) = 0 ∧ S.fl = 0
  after : ∀ i, S.b.inst = some i → i.blnd ≠ i.backstopToken →
    S.b.poolBal.sum (fun _ pb => pb.tokens) + S.fl ≤ S.vb i.backstopToken

theorem sum_tokens_set (m : SMap PoolBalance) (b : BackstopState) (hm : b.poolBal = m) (p : Address) (pb : PoolBalance) :
    (m.set p pb).sum (fun _ x => x.tokens) =
      m.sum (fun _ x => x.tokens) + (pb.tokens - (b.getPoolBal p).tokens) := by
  rw [SMap.sum_set]
  unfold BackstopState.getPoolBal
  rw [hm]
  cases m.get p with
  | none => simp
  | some x => simp; ring

theorem bmicro_funded {now : Nat} {F : Prop} {U : Address → Prop} {S S' : BS} (h : BMicro now F U S S')
    (inv : BInv now S.b) (f : Funded S) : Funded S' := by
  -- both parts at once: the recorded tokens change by `δ`, those in flight by `ε`
  have key : ∀ {b' : BackstopState} {vb' : Address → Int} {fl' δ : Int},
      S.b.inst ≠ none → b'.inst = S.b.inst →
      b'.poolBal.sum (fun _ pb => pb.tokens) = S.b.poolBal.sum (fun _ pb => pb.tokens) + δ →
      (∀ i, S.b.inst = some i → i.blnd ≠ i.backstopToken →
        S.vb i.backstopToken + δ + (fl' - S.fl) ≤ vb' i.backstopToken) → Funded ⟨b', vb', fl'⟩ := by
    intro b' vb' fl' δ hi h1 h2 h3
    refine ⟨fun hn => absurd (h1 ▸ hn) hi, fun i hi' hne => ?_⟩
    simp only [h1] at hi'
    have := f.after i hi' hne
    have := h3 i hi' hne
    simp only [h2]
    omega
  have same : ∀ {b' : BackstopState} {vb' : Address → Int},
      b'.inst = S.b.inst → b'.poolBal.sum (fun _ pb => pb.tokens) = S.b.poolBal.sum (fun _ pb => pb.tokens) →
      (∀ i, S.b.inst = some i → i.blnd ≠ i.backstopToken → S.vb i.backstopToken ≤ vb' i.backstopToken) →
      Funded ⟨b', vb', S.fl⟩ := by
    intro b' vb' h1 h2 h3
    refine ⟨fun hn => ?_, fun i hi hne => ?_⟩
    · simp only [h1] at hn; simp only [h2]; exact f.before hn
    · simp only [h1] at hi
      have := f.after i hi hne
      have := h3 i hi hne
      simp only [h2]; omega
  cases h with
  | vb vb' h =>
    refine same rfl rfl fun i hi hne => ?_
    rcases h i.backstopToken with h | ⟨j, hj, e⟩
    · exact h
    · rw [hi] at hj; cases hj; exact absurd e.symm hne
  | init i dl ld h h' =>
    refine ⟨fun hn => by simp at hn, fun j hj hne => ?_⟩
    obtain ⟨e1, e2⟩ := f.before h
    show S.b.poolBal.sum _ + S.fl ≤ _
    rw [e1, e2]; exact h' _
  | misc ld rz pe lv dl => exact same rfl rfl fun _ _ _ => le_refl _
  | deposit p u amt m x b1 i vb' h0 h1 h2 h3 h4 h5 h6 =>
    obtain ⟨k1, k2, k3, k4⟩ := inv.emis' h3
    refine key (δ := amt) (by simp [h2]) k4 ?_ fun j hj hne => ?_
    · show (b1.poolBal.set p _).sum _ = _
      rw [sum_tokens_set _ S.b k2.symm]; simp only; rw [k2]; ring
    · rw [h2] at hj; cases hj
      have := h6 i.backstopToken; simp at this; omega
  | queue p u amt x b1 h0 h1 h2 h3 h4 =>
    obtain ⟨k1, k2, k3, k4⟩ := inv.emis' h4
    refine same k4 ?_ fun _ _ _ => le_refl _
    show (b1.poolBal.set p _).sum _ = _
    rw [sum_tokens_set _ S.b k2.symm]; simp only; rw [k2]; ring
  | dequeue p u amt x b1 q h0 h1 h2 h3 h4 =>
    obtain ⟨k1, k2, k3, k4⟩ := inv.emis' h3
    refine same k4 ?_ fun _ _ _ => le_refl _
    show (b1.poolBal.set p _).sum _ = _
    rw [sum_tokens_set _ S.b k2.symm]; simp only; rw [k2]; ring
  | withdraw p u amt tk q i vb' h0 h1 h2 h3 h4 h5 h6 h7 h8 h9 =>
    refine key (δ := -tk) (by simp [h2]) rfl ?_ fun j hj hne => ?_
    · show (S.b.poolBal.set p _).sum _ = _
      rw [sum_tokens_set _ S.b rfl]; simp only; ring
    · rw [h2] at hj; cases hj
      have := h9 i.backstopToken; simp at this; omega
  | draw p amt i vb' h0 h1 h2 h3 =>
    refine key (δ := -amt) (by simp [h2]) rfl ?_ fun j hj hne => ?_
    · show (S.b.poolBal.set p _).sum _ = _
      rw [sum_tokens_set _ S.b rfl]; simp only; ring
    · rw [h2] at hj; cases hj
      have := h3 i.backstopToken; simp at this; omega
  | donate p amt i vb' h0 h1 h2 =>
    refine key (δ := amt) (by simp [h1]) rfl ?_ fun j hj hne => ?_
    · show (S.b.poolBal.set p _).sum _ = _
      rw [sum_tokens_set _ S.b rfl]; simp only; ring
    · rw [h1] at hj; cases hj
      have := h2 i.backstopToken; simp at this; omega
  | claim p u x b1 h0 h1 =>
    obtain ⟨_, k2, _, k4, _⟩ := inv.emis h1
    exact same k4 (by show b1.poolBal.sum _ = _; rw [k2]) fun _ _ _ => le_refl _
  | mintLp amt i vb' h0 h1 h2 =>
    refine key (δ := 0) (by simp [h1]) rfl (by simp) fun j hj hne => ?_
    rw [h1] at hj; cases hj
    have := h2 i.backstopToken (fun e => hne e.symm); simp at this; omega
  | credit p u dep m i h0 h1 h2 h3 h4 =>
    refine key (δ := dep) (by simp [h1]) rfl ?_ fun j hj hne => by omega
    show (S.b.poolBal.set p _).sum _ = _
    rw [sum_tokens_set _ S.b rfl]; simp only; ring
  | settle h =>
    refine ⟨fun hn => ⟨(f.before hn).1, rfl⟩, fun i hi hne => ?_⟩
    have := f.after i hi hne
    show _ + (0 : Int) ≤ _
    simp only at *
    omega
  | gulp p n b1 h0 h1 =>
    obtain ⟨d', eps, rfl, _⟩ := setEmisConfig_ok h1
    exact same rfl rfl fun _ _ _ => le_refl _

/-! ### emissions -/

/-- what depositors of `p` are entitled to was allotted to them -/
def PotOk (b : BackstopState) (p : Address) : Prop :=
  ∀ cfg d, b.emisCfg p = some cfg → b.emisData p = some d →
    phi SCALAR_7 (fun u => (b.getUserBal p u).shares) ((b.getPoolBal p).shares - (b.getPoolBal p).q4w) d.index
      (b.userEmis p) + SCALAR_7 * b.claimed p +
      SCALAR_7 * ((cfg.eps : Int) * ((cfg.expiration - d.lastTime : Nat) : Int)) ≤ SCALAR_7 * b.received p

theorem PotOk.same {b b' : BackstopState} {p : Address} (h : PotOk b p) (h1 : b'.emisCfg p = b.emisCfg p)
    (h2 : b'.emisData p = b.emisData p) (h3 : b'.userEmis p = b.userEmis p) (h4 : b'.claimed p = b.claimed p)
    (h5 : b'.received p = b.received p) (h6 : ∀ u, (b'.getUserBal p u).shares = (b.getUserBal p u).shares)
    (h7 : (b'.getPoolBal p).shares - (b'.getPoolBal p).q4w = (b.getPoolBal p).shares - (b.getPoolBal p).q4w) :
    PotOk b' p := by
  intro cfg d hc hd
  rw [h1] at hc; rw [h2] at hd
  have := h cfg d hc hd
  have e : (fun u => (b'.getUserBal p u).shares) = fun u => (b.getUserBal p u).shares := funext h6
  rw [h3, h4, h5, h7, e]; exact this

/-- an emission update followed by a change of the user's shares -/
theorem PotOk.update {now : Nat} {b b1 b2 : BackstopState} (inv : BInv now b) (h : ∀ q, PotOk b q) {p u : Address}
    {claim : Bool} {x : Int}
    (hu : updateEmissions b now p (b.getPoolBal p) u (b.getUserBal p u) claim = .ok (x, b1))
    (h1 : b2.emisCfg = b1.emisCfg) (h2 : b2.emisData = b1.emisData) (h3 : b2.userEmis = b1.userEmis)
    (h4 : b2.claimed = upd b1.claimed p (b1.claimed p + x)) (h5 : b2.received = b1.received)
    (h6 : ∀ q v, (q ≠ p ∨ v ≠ u) → b2.getUserBal q v = b.getUserBal q v)
    (h7 : ∀ q, q ≠ p → b2.getPoolBal q = b.getPoolBal q)
    (h8 : (b2.getPoolBal p).shares - (b2.getPoolBal p).q4w = (b.getPoolBal p).shares - (b.getPoolBal p).q4w +
      ((b2.getUserBal p u).shares - (b.getUserBal p u).shares)) (q : Address) : PotOk b2 q := by
  have hot : q ≠ p → b1.emisCfg = b.emisCfg → b1.emisData q = b.emisData q → b1.userEmis q = b.userEmis q →
      b1.claimed = b.claimed → b1.received = b.received → PotOk b2 q := by
    intro hq e1 e2 e3 e4 e5
    refine (h q).same (by rw [h1, e1]) (by rw [h2, e2]) (by rw [h3, e3]) (by rw [h4, upd_ne hq, e4]) (by rw [h5, e5])
      (fun v => by rw [h6 q v (.inl hq)]) (by rw [h7 q hq])
  rcases updateEmissions_ok hu with ⟨hc, rfl, rfl⟩ | ⟨cfg, ed, d, y, r⟩
  · by_cases hq : q = p
    · subst hq
      intro cf d hcf
      rw [h1, hc] at hcf; simp at hcf
    · exact hot hq rfl rfl rfl rfl rfl
  · have he := r.eq
    subst he
    by_cases hq : q = p
    · subst hq
      intro cf d' hcf hd'
      simp only [h1] at hcf
      rw [r.config] at hcf; cases hcf
      rw [h2] at hd'
      simp only [upd_same, Option.some.injEq] at hd'
      subst hd'
      obtain ⟨d0, k1, k2, k3, k4⟩ := inv.isSet q cfg r.config
      rw [r.data] at k1; cases k1
      obtain ⟨i1, i2, i3, i4⟩ := r.index k2
      obtain ⟨_, _, a3⟩ := r.acc (inv.user q u).shares (k4.mono i1) (by omega)
      have h0 := h q cfg ed r.config r.data
      have p1 := phi_index SCALAR_7 (fun u => (b.getUserBal q u).shares)
        ((b.getPoolBal q).shares - (b.getPoolBal q).q4w) ed.index d.index (b.userEmis q)
      have p2 := phi_user (s := SCALAR_7) (bal := fun v => (b.getUserBal q v).shares)
        (bal' := fun v => (b2.getUserBal q v).shares)
        (tot' := (b2.getPoolBal q).shares - (b2.getPoolBal q).q4w)
        (tot := (b.getPoolBal q).shares - (b.getPoolBal q).q4w) r.xi a3
        (fun v hv => by simp only [h6 q v (.inr hv)]) h8
      rw [h3, h4, h5]
      simp only [upd_same]
      rw [mul_add]
      linarith
    · exact hot hq rfl (by simp [upd_ne hq]) (by simp [upd_ne hq]) rfl rfl

theorem bmicro_pot {now : Nat} {F : Prop} {U : Address → Prop} (hF : ¬ F) {S S' : BS} (h : BMicro now F U S S')
    (inv : BInv now S.b) (f : ∀ p, PotOk S.b p) : ∀ p, PotOk S'.b p := by
  have tok : ∀ (p : Address) (tk : Int) (q : Address),
      PotOk (S.b.setPoolBal p { S.b.getPoolBal p with tokens := tk }) q := by
    intro p tk q
    refine (f q).same rfl rfl rfl rfl rfl (fun _ => rfl) ?_
    unfold BackstopState.getPoolBal BackstopState.setPoolBal
    simp only [SMap.get_set]
    split
    · rename_i e; subst e; rfl
    · rfl
  cases h with
  | vb vb' h => exact f
  | init i dl ld h h' => exact fun p => (f p).same rfl rfl rfl rfl rfl (fun _ => rfl) rfl
  | misc ld rz pe lv dl => exact fun p => (f p).same rfl rfl rfl rfl rfl (fun _ => rfl) rfl
  | deposit p u amt m x b1 i vb' h0 h1 h2 h3 h4 h5 h6 =>
    obtain ⟨k1, k2, k3, k4⟩ := inv.emis' h3
    have hx : x = 0 := (inv.emis h3).2.2.2.2.1 rfl
    subst hx
    refine PotOk.update inv f h3 rfl rfl rfl (by rw [add_zero, upd_eq_self rfl]; rfl) rfl ?_ ?_ ?_
    · intro q v hq
      rw [getUserBal_set, if_neg (by rintro ⟨rfl, rfl⟩; simp at hq), getUserBal_congr k3]
    · intro q hq; rw [getPoolBal_set, if_neg hq, getPoolBal_congr k2]
    · rw [getPoolBal_set, getUserBal_set]; simp; ring
  | queue p u amt x b1 h0 h1 h2 h3 h4 =>
    obtain ⟨k1, k2, k3, k4⟩ := inv.emis' h4
    have hx : x = 0 := (inv.emis h4).2.2.2.2.1 rfl
    subst hx
    refine PotOk.update inv f h4 rfl rfl rfl (by rw [add_zero, upd_eq_self rfl]; rfl) rfl ?_ ?_ ?_
    · intro q v hq
      rw [getUserBal_set, if_neg (by rintro ⟨rfl, rfl⟩; simp at hq), getUserBal_congr k3]
    · intro q hq; rw [getPoolBal_set, if_neg hq, getPoolBal_congr k2]
    · rw [getPoolBal_set, getUserBal_set]; simp; ring
  | dequeue p u amt x b1 q h0 h1 h2 h3 h4 =>
    obtain ⟨k1, k2, k3, k4⟩ := inv.emis' h3
    have hx : x = 0 := (inv.emis h3).2.2.2.2.1 rfl
    subst hx
    refine PotOk.update inv f h3 rfl rfl rfl (by rw [add_zero, upd_eq_self rfl]; rfl) rfl ?_ ?_ ?_
    · intro q v hq
      rw [getUserBal_set, if_neg (by rintro ⟨rfl, rfl⟩; simp at hq), getUserBal_congr k3]
    · intro q hq; rw [getPoolBal_set, if_neg hq, getPoolBal_congr k2]
    · rw [getPoolBal_set, getUserBal_set]; simp; ring
  | withdraw p u amt tk q i vb' h0 h1 h2 h3 h4 h5 h6 h7 h8 h9 =>
    intro r
    refine (f r).same rfl rfl rfl rfl rfl (fun v => ?_) ?_
    · rw [getUserBal_set]; split
      · rename_i e; rw [e.1, e.2]
      · rfl
    · rw [getPoolBal_set]; split
      · rename_i e; subst e; simp
      · rfl
  | draw p amt i vb' h0 h1 h2 h3 => exact tok p _
  | donate p amt i vb' h0 h1 h2 => exact tok p _
  | claim p u x b1 h0 h1 =>
    obtain ⟨k1, k2, k3, k4, _⟩ := inv.emis h1
    refine PotOk.update inv f h1 rfl rfl rfl rfl rfl ?_ ?_ ?_
    · intro q v hq; exact getUserBal_congr k3 q v
    · intro q hq; exact getPoolBal_congr k2 q
    · have e1 : ({ b1 with claimed := upd b1.claimed p (b1.claimed p + x) } : BackstopState).getPoolBal p = S.b.getPoolBal p :=
        getPoolBal_congr k2 p
      have e2 : ({ b1 with claimed := upd b1.claimed p (b1.claimed p + x) } : BackstopState).getUserBal p u = S.b.getUserBal p u :=
        getUserBal_congr k3 p u
      rw [e1, e2]; ring
  | mintLp amt i vb' h0 h1 h2 => exact f
  | credit p u dep m i h0 h1 h2 h3 h4 =>
    have hup := h3.resolve_left hF
    intro q
    by_cases hq : q = p
    · subst hq
      intro cfg d hc hd
      obtain ⟨d', y, e1, e2, e3⟩ := hup cfg hc
      have hd' : S.b.emisData q = some d := hd
      rw [hd'] at e1; cases e1
      have h0 := f q cfg d hc hd
      have hy : (S.b.userEmis q).set u y = S.b.userEmis q := SMap.set_self e2
      have eu : userEntry (S.b.userEmis q) u = y := by unfold userEntry; rw [e2]; rfl
      have p2 := phi_user (s := SCALAR_7) (ue := S.b.userEmis q) (bal := fun v => (S.b.getUserBal q v).shares)
        (bal' := fun v => ((setBal S.b q u
        { S.b.getPoolBal q with
          tokens := (S.b.getPoolBal q).tokens + dep
          shares := (S.b.getPoolBal q).shares + m }
        { S.b.getUserBal q u with shares := (S.b.getUserBal q u).shares + m }).getUserBal q v).shares)
        (tot' := (S.b.getPoolBal q).shares + m - (S.b.getPoolBal q).q4w)
        (tot := (S.b.getPoolBal q).shares - (S.b.getPoolBal q).q4w) (u := u) (amt := 0) e3
        (by rw [eu, e3]; simp)
        (fun v hv => by simp only; rw [getUserBal_set, if_neg (by simp [hv])])
        (by simp only; rw [getUserBal_set]; simp; ring)
      rw [hy] at p2
      rw [getPoolBal_set, if_pos rfl]
      show phi _ _ _ _ (S.b.userEmis q) + SCALAR_7 * S.b.claimed q + _ ≤ SCALAR_7 * S.b.received q
      simp only at p2 h0 ⊢
      linarith
    · refine (f q).same rfl rfl rfl rfl rfl (fun v => ?_) ?_
      · rw [getUserBal_set, if_neg (by simp [hq])]
      · rw [getPoolBal_set, if_neg hq]
  | settle h => exact f
  | gulp p n b1 h0 h1 =>
    obtain ⟨d', eps, rfl, k1, k2⟩ := setEmisConfig_ok h1
    intro q
    by_cases hq : q = p
    · subst hq
      intro cfg d hc hd
      simp only [upd_same, Option.some.injEq] at hc hd
      subst hc; subst hd
      simp only [upd_same, k1, Nat.add_sub_cancel_left]
      show phi SCALAR_7 (fun u => (S.b.getUserBal q u).shares) ((S.b.getPoolBal q).shares - (S.b.getPoolBal q).q4w)
        d'.index (S.b.userEmis q) + SCALAR_7 * S.b.claimed q + _ ≤ _
      push_cast
      rcases k2 with ⟨c1, c2, c3⟩ | ⟨cfg, ed, c1, c2, c3⟩
      · obtain ⟨_, e2, e3, e4⟩ := inv.unset q c1
        rw [e2, e3, e4, c2]
        unfold phi
        have := c3 h0
        simp only [SMap.sum_empty]
        unfold SCALAR_7
        linarith
      · obtain ⟨d0, e1, e2, e3, e4⟩ := inv.isSet q cfg c1
        rw [c2] at e1; cases e1
        have := (c3 e2).2 h0
        have h0 := f q cfg ed c1 c2
        have p1 := phi_index SCALAR_7 (fun u => (S.b.getUserBal q u).shares)
          ((S.b.getPoolBal q).shares - (S.b.getPoolBal q).q4w) ed.index d'.index (S.b.userEmis q)
        rw [p1, mul_add]
        linarith
    · exact (f q).same (by simp [upd_ne hq]) (by simp [upd_ne hq]) rfl rfl (by simp [upd_ne hq]) (fun _ => rfl) rfl

end Backstop
end Blend
