import Verif.Lemmas.GoTtlSim
import Verif.Lemmas.GoTtlExec
import Verif.Props.Ttl
/-!
# C109, C110 What the text of `ttl.go` does, run by goroutines

`TgReachable N rnd c`: `ttl` was called on a node that works, the goroutines it starts run its text (`Model/GoTextTtl.lean`), action by action, together
with everything else on the node; `c` is a state they get to. `c.ts[0]` is the caller, `c.ts[1]` the loop, the others are the goroutines `run`;
`c.log` is what these have done, in this order. `N` bounds the iterations of each loop that are looked at; the theorems hold for every `N`.
-/

namespace Verif.Go

variable {N : Nat} {rnd : Nat → Nat} {c : Tg}

/-- The wait is one for a lease of so many seconds: at least as long, and by less than a second longer. Leases beyond 292 years overflow. -/
def WaitFor (lease d : Int) : Prop := -9223372036 ≤ lease → lease ≤ 9223372035 → lease * 1000000000 ≤ d ∧ d < (lease + 1) * 1000000000

theorem TimerOk.waitFor {h : History} {x : Timer} (hx : TimerOk h x) : WaitFor x.lease x.delay := by
  intro h1 h2
  obtain ⟨_, _, h3 | ⟨h3, j, hj, h4⟩⟩ := hx
  · rw [h3]
    unfold leaseDelay wrap64
    omega
  · have e : leaseDelay x.lease = x.lease * 1000000000 := by
      unfold leaseDelay wrap64
      rw [Int.emod_eq_of_lt (by omega) (by omega)]
      omega
    rw [h4]
    unfold jitteredDelay
    rw [e]
    unfold wrap64
    rw [Int.emod_eq_of_lt (by omega) (by omega)]
    omega

/-- The version was written with this lease (or is the deletion of such a version). -/
def LeasedVersion (h : History) (key : Bytes) (rev lease : Int) : Prop :=
  lease ≠ 0 ∧ ∃ cm ∈ h, cm.rev = rev ∧ cm.key = key ∧ ∀ v l, cm.write = some (v, l) → l = lease

theorem TimerOk.leased {h : History} {x : Timer} (hx : TimerOk h x) : LeasedVersion h x.key x.rev x.lease := by
  obtain ⟨h1, ⟨cm, hc, h2, h3, h4⟩, _⟩ := hx
  refine ⟨h1, cm, hc, h2, h3, fun v l hw => ?_⟩
  rcases h4 with h4 | ⟨v', h4⟩
  · rw [h4] at hw; cases hw
  · rw [h4] at hw; cases hw; rfl

/-! ## C109 Deletions -/

/-- Nothing the goroutines do is undefined: no panic, no value of a wrong type. -/
theorem C109_defined (h : TgReachable N rnd c) : ∀ t ∈ c.ts, t ≠ .stuck := by
  obtain ⟨t, r⟩ := h.sim
  rintro s hs rfl
  rcases r.go with ⟨hts, _⟩ | ⟨⟨L, ws, xs, rest, h1, _, _, h4, h5⟩⟩
  · rw [hts] at hs; simp at hs
  · rw [h1] at hs
    simp only [List.mem_cons, reduceCtorEq, false_or] at hs
    rcases hs with hs | hs
    · have := h5.top
      rw [← hs] at this
      generalize t.phase = ph at this
      cases this
    · obtain ⟨k, hk⟩ := List.getElem?_of_mem hs
      obtain ⟨x, _, hst⟩ := h4 k _ hk
      cases hst

/-- A goroutine asks for a deletion only after it has waited, and only for that of a version that was written with a lease; it has waited for as long as
the lease says, and less than a second longer. -/
theorem C109_waits (h : TgReachable N rnd c) {pre post : List TtlEv} {i : Nat} {key : Bytes} {rev : Int}
    (hlog : c.log = pre ++ .asked i key rev :: post) :
    ∃ d lease, .waited i d ∈ pre ∧ WaitFor lease d ∧ LeasedVersion c.base.sys.world.hist key rev lease := by
  obtain ⟨t, r⟩ := h.sim
  obtain ⟨k, x, rfl, hx, rfl, rfl, hw⟩ := r.asked _ _ _ _ _ hlog
  have hok := r.reach.inv.timers x (List.mem_of_getElem? hx)
  exact ⟨x.delay, x.lease, hw, TimerOk.waitFor hok, TimerOk.leased hok⟩

/-- A goroutine asks for the deletion of one version only. -/
theorem C109_one_version (h : TgReachable N rnd c) {i : Nat} {key key' : Bytes} {rev rev' : Int} (h1 : .asked i key rev ∈ c.log)
    (h2 : .asked i key' rev' ∈ c.log) : key = key' ∧ rev = rev' := by
  obtain ⟨t, r⟩ := h.sim
  obtain ⟨pre, post, e⟩ := List.append_of_mem h1
  obtain ⟨pre', post', e'⟩ := List.append_of_mem h2
  obtain ⟨k, x, h3, hx, rfl, rfl, _⟩ := r.asked _ _ _ _ _ e
  obtain ⟨k', x', h3', hx', rfl, rfl, _⟩ := r.asked _ _ _ _ _ e'
  obtain rfl : k = k' := by omega
  rw [hx] at hx'
  cases hx'
  exact ⟨rfl, rfl⟩

/-- The deletion either changes nothing, or it removes the key at an instant when its version is exactly the one that the goroutine was started for. -/
theorem C109_exact (h : TgReachable N rnd c) {i : Nat} {key : Bytes} {rev : Int} (ha : .asked i key rev ∈ c.log) {t : List Obs}
    {r : Except ApiErr (Int × Bool)} {s' : Sys} (hr : Run c.base.sys (Backend.delete key rev) t r s') :
    ChangesNothing t ∨ ∃ n, OneWrite t key n (fun cur => ∃ old, cur = some old ∧ old.modRev = rev) (fun _ => none) := by
  obtain ⟨l, rel⟩ := h.sim
  obtain ⟨pre, post, e⟩ := List.append_of_mem ha
  obtain ⟨k, x, _, hx, rfl, rfl, _⟩ := rel.asked _ _ _ _ _ e
  exact C38_expiry_exact rel.reach (List.mem_of_getElem? hx) hr

/-- A goroutine gives up only when the context ends: one that has returned has been told that its deletion was done, or has seen the end of the context. -/
theorem C109_retries (h : TgReachable N rnd c) {i : Nat} (hi : 2 ≤ i) {vs : List V} (hr : c.ts[i]? = some (.ret vs)) : .done i ∈ c.log ∨ .stopped i ∈ c.log := by
  obtain ⟨t, r⟩ := h.sim
  obtain ⟨k, rfl⟩ : ∃ k, i = k + 2 := ⟨i - 2, by omega⟩
  rcases r.go with ⟨hts, _⟩ | ⟨⟨L, ws, xs, rest, h1, _, _, h4, h5⟩⟩
  · rw [hts] at hr; simp at hr
  · rw [h1] at hr
    obtain ⟨x, _, hst⟩ := h4 k _ (by simpa using hr)
    cases hst with
    | ret h => exact h.elim .inr fun h => .inl h.2.2

/-! ## C110 Every leased version has a goroutine -/

/-- The loop waits for the next update of its group. -/
def Tg.Follows (c : Tg) (g : Nat) : Prop := ∃ ok closed, c.ts[1]? = some (.recvUpdate g ok closed)

/-- Goroutine `i` is there for a version with this lease: it waits, and will ask for the deletion; or it has waited, and has asked for the deletion or is about to; or the context has
ended. -/
def Tg.Times (c : Tg) (i : Nat) (key : Bytes) (rev lease : Int) : Prop :=
  (∃ d done ok er, c.ts[i]? = some (.wait d done (.delete key rev ok er)) ∧ WaitFor lease d) ∨
  (∃ d, .waited i d ∈ c.log ∧ WaitFor lease d ∧ (.asked i key rev ∈ c.log ∨ ∃ ok er, c.ts[i]? = some (.delete key rev ok er))) ∨
  .stopped i ∈ c.log

theorem TimerSt.times {M : Nat} {xs : List Timer} {ws : List Tt} {h : History} {L : Tt} (h1 : c.ts = .ret [] :: L :: ws) (h3 : xs.length = ws.length)
    (h4 : TimersAt (M + 1) c.log xs ws) {x : Timer} (hx : x ∈ xs) (hok : TimerOk h x) : ∃ i, c.Times i x.key x.rev x.lease := by
  obtain ⟨k, hk⟩ := List.getElem?_of_mem hx
  have hlt : k < ws.length := by have := (List.getElem?_eq_some_iff.1 hk).1; omega
  obtain ⟨y, hy, hs⟩ := h4 k ws[k] (List.getElem?_eq_getElem hlt)
  rw [hk] at hy
  cases hy
  have hts : c.ts[k + 2]? = some ws[k] := by rw [h1]; simp [hlt]
  have hw := TimerOk.waitFor hok
  refine ⟨k + 2, ?_⟩
  generalize ws[k] = w at hs hts
  cases hs with
  | wait => exact .inl ⟨_, _, _, _, hts, hw⟩
  | out h => exact .inr (.inl ⟨_, (h (by omega)).1, hw, .inl (h (by omega)).2⟩)
  | delete m h => exact .inr (.inl ⟨_, h, hw, .inr ⟨_, _, hts⟩⟩)
  | deleting m h ha => exact .inr (.inl ⟨_, h, hw, .inl ha⟩)
  | pause m h ha => exact .inr (.inl ⟨_, h, hw, .inl ha⟩)
  | ret h =>
    rcases h with h | ⟨h, ha, _⟩
    · exact .inr (.inr h)
    · exact .inr (.inl ⟨_, h, hw, .inl ha⟩)

/-- The loop that waits for an update has started the goroutines for all the timers of the model. -/
theorem TtlRel.follows {t : TtlLoop} (r : TtlRel (N + 1) rnd c t) {g : Nat} (hf : c.Follows g) :
    (∃ start, t.phase = .serve start g) ∧ ∀ x ∈ t.timers, ∃ i, c.Times i x.key x.rev x.lease := by
  obtain ⟨ok, closed, hf⟩ := hf
  rcases r.go with ⟨hts, _⟩ | ⟨⟨L, ws, xs, rest, h1, h2, h3, h4, h5⟩⟩
  · rw [hts] at hf; simp at hf
  · rw [h1] at hf
    simp only [List.getElem?_cons_succ, List.getElem?_cons_zero, Option.some.injEq] at hf
    subst hf
    have hp := h5.top
    generalize hph : t.phase = ph at hp
    cases hp with
    | recv start g m gr hg idle =>
      refine ⟨⟨start, rfl⟩, fun x hx => ?_⟩
      have hok := r.reach.inv.timers x hx
      rw [h2, List.append_nil] at hx
      exact TimerSt.times h1 h3 h4 hx hok

/-- When the loop follows its watch, which it has started from revision `start`: every live version with a lease up to this revision has a goroutine. -/
theorem C110_listed (h : TgReachable (N + 1) rnd c) {g : Nat} (hf : c.Follows g) (htr : c.truncated = false) :
    ∃ start, c.start = some start ∧
      ∀ k kv, c.base.sys.world.hist.now k = some kv → kv.lease ≠ 0 → kv.modRev ≤ start → ∃ i, c.Times i k kv.modRev kv.lease := by
  obtain ⟨t, r⟩ := h.sim
  obtain ⟨⟨start, hp⟩, hx⟩ := r.follows hf
  refine ⟨start, r.start _ _ hp, fun k kv hn hl hrev => ?_⟩
  obtain ⟨x, hxt, rfl, h2, h3⟩ := C39_listed r.reach (Or.inr ⟨g, Or.inr hp⟩) (by rw [← r.trunc]; exact htr) hn hl hrev
  rw [← h2, ← h3]
  exact hx x hxt

/-- And so has every live version with a positive lease that the node has seen, if the watch of the loop works (`C39_scheduled_partial`). -/
theorem C110_scheduled_partial (h : TgReachable (N + 1) rnd c) {i : Nat} (hf : c.Follows i) (htr : c.truncated = false) {g : Group}
    (hg : c.base.node.groupAt i = some g) {x : Watcher} (hx : x ∈ g.watchers) (hstart : 0 < x.start)
    (hinit : x.initialized = true) (hlossy : x.lossy = false) (hot : c.base.node.overtaken = false)
    (hdrop : g.dropped = false) (hq : g.queue = []) (hev : x.events = [])
    {k : Bytes} {kv : KV} (hn : c.base.sys.world.hist.now k = some kv) (hl : kv.lease > 0)
    (hk : inRange [0] [255] k = true) (hr : kv.modRev ≤ g.currentRevision) : ∃ j, c.Times j k kv.modRev kv.lease := by
  obtain ⟨t, r⟩ := h.sim
  obtain ⟨⟨start, hp⟩, ht⟩ := r.follows hf
  have hs : 0 < start := by
    have hph := r.reach.inv.phase
    unfold PhaseOk at hph
    simp only [hp] at hph
    obtain ⟨_, _, g', hg', tg⟩ := hph
    have : g' = g := by rw [hg] at hg'; cases hg'; rfl
    subst this
    rw [← (tg.range x hx).2.2]; exact hstart
  obtain ⟨y, hy, rfl, h2, h3⟩ := C39_scheduled_partial r.reach hp hs (by rw [← r.trunc]; exact htr) hg hx hinit hlossy hot hdrop hq hev hn hl hk hr
  rw [← h2, ← h3]
  exact ht y hy

/-! ### Concrete schedules -/

/-- A node with `/b` (lease 30, revision 4). -/
def ttlScenario : NScenario := ⟨Demo.setup, 4, []⟩

/-- `ttl` is called; the loop lists, and follows its watch from revision 7. -/
def ttlActs : List TgAct :=
  [.go 0, .exec 1 .ok, .go 1, .exec 1 .ok, .go 1, .go 1, .go 1, .go 1, .node (.exec 0 .ok), .node (.done 0), .node (.exec 0 .ok), .node (.done 0), .go 1]

/-- `/d` is created with lease 5 (revision 8), the node polls, the loop receives the events, those of `/b` (the node was behind) and `/d`, draws
700 for each, and starts a goroutine for each. -/
def ttlMoreActs : List TgAct :=
  [.calls [(.txn true (createTxn [0x2f, 0x64] [9] 5), oks 1)], .node .pollStart, .node (.pollExec .ok), .node .pollDone, .go 1, .go 1, .go 1, .go 1, .go 1]

/-- A check on a goroutine. -/
def Tg.is (c : Tg) (i : Nat) (p : Tt → Bool) : Bool :=
  match c.ts[i]? with
  | some t => p t
  | none => false

theorem Tg.is_eq {i : Nat} {p : Tt → Bool} (h : c.is i p = true) : ∃ t, c.ts[i]? = some t ∧ p t = true := by
  unfold Tg.is at h
  split at h
  · exact ⟨_, by assumption, h⟩
  · cases h

/-- It waits for an update of the group. -/
def Tt.isRecv (g : Nat) : Tt → Bool
  | .recvUpdate g' _ _ => decide (g' = g)
  | _ => false

/-- It has returned. -/
def Tt.isRet : Tt → Bool
  | .ret [] => true
  | _ => false

theorem Tg.follows {g : Nat} (h : c.is 1 (Tt.isRecv g) = true) : c.Follows g := by
  obtain ⟨t, ht, hp⟩ := Tg.is_eq h
  unfold Tt.isRecv at hp
  split at hp
  · rw [of_decide_eq_true hp] at ht
    exact ⟨_, _, ht⟩
  · cases hp

theorem Tg.isRet {i : Nat} (h : c.is i Tt.isRet = true) : c.ts[i]? = some (.ret []) := by
  obtain ⟨t, ht, hp⟩ := Tg.is_eq h
  unfold Tt.isRet at hp
  split at hp
  · exact ht
  · cases hp

/-- The hypotheses of `C109` are met: the goroutine of `/d` waits for 5.7 seconds, its first try fails, its second one is answered, and it returns. -/
example : ∃ c, TgReachable 20 (fun _ => 1700) c ∧ c.Follows 0 ∧ c.ts[4]? = some (.ret []) ∧
    c.log = [.waited 4 5700000000, .asked 4 [0x2f, 0x64] 8, .failed 4 (.db .busy), .asked 4 [0x2f, 0x64] 8, .done 4] := by
  obtain ⟨c, h, hP⟩ := tgrun_check (N := 20) (rnd := fun _ => 1700) (sc := ttlScenario)
    (as := ttlActs ++ ttlMoreActs ++ [.go 4, .go 4, .answer 4 (.error (.db .busy)), .go 4, .go 4, .answer 4 (.ok (9, true))])
    (fun c => c.is 1 (Tt.isRecv 0) && c.is 4 Tt.isRet &&
      decide (c.log = [.waited 4 5700000000, .asked 4 [0x2f, 0x64] 8, .failed 4 (.db .busy), .asked 4 [0x2f, 0x64] 8, .done 4])) (by decide +kernel)
  simp only [Bool.and_eq_true, decide_eq_true_eq] at hP
  obtain ⟨⟨h1, h2⟩, h3⟩ := hP
  exact ⟨c, h, Tg.follows h1, Tg.isRet h2, h3⟩

/-- The hypotheses of `C110` are met, for `/b` (revision 4, before the start of the watch) and `/d` (revision 8, seen by the watch). -/
example : ∃ c g x, TgReachable 20 (fun _ => 1700) c ∧ c.Follows 0 ∧ c.truncated = false ∧ c.start = some 7 ∧ c.base.node.groupAt 0 = some g ∧
    x ∈ g.watchers ∧ 0 < x.start ∧ x.initialized = true ∧ x.lossy = false ∧ c.base.node.overtaken = false ∧ g.dropped = false ∧ g.queue = [] ∧
    x.events = [] ∧ c.base.sys.world.hist.now Demo.kb = some ⟨Demo.kb, [2], 30, 4, 4⟩ ∧
    c.base.sys.world.hist.now [0x2f, 0x64] = some ⟨[0x2f, 0x64], [9], 5, 8, 8⟩ ∧ g.currentRevision = 8 ∧ c.ts.length = 5 := by
  obtain ⟨c, h, hP⟩ := tgrun_check (N := 20) (rnd := fun _ => 1700) (sc := ttlScenario) (as := ttlActs ++ ttlMoreActs)
    (fun c => c.is 1 (Tt.isRecv 0) && !c.truncated && decide (c.start = some 7) && !c.base.node.overtaken &&
      decide (c.base.sys.world.hist.now Demo.kb = some ⟨Demo.kb, [2], 30, 4, 4⟩) &&
      decide (c.base.sys.world.hist.now [0x2f, 0x64] = some ⟨[0x2f, 0x64], [9], 5, 8, 8⟩) && decide (c.ts.length = 5) &&
      match c.base.node.groups[0]? with
      | some g => !g.dropped && decide (g.queue = []) && decide (g.currentRevision = 8) &&
          g.watchers.any fun x => x.initialized && !x.lossy && decide (x.events = []) && decide (0 < x.start)
      | none => false) (by decide +kernel)
  simp only [Bool.and_eq_true, decide_eq_true_eq, Bool.not_eq_true'] at hP
  obtain ⟨⟨⟨⟨⟨⟨⟨h1, h2⟩, h3⟩, h4⟩, h5⟩, h6⟩, h7⟩, h8⟩ := hP
  cases hg : c.base.node.groups[0]? with
  | none => rw [hg] at h8; cases h8
  | some g =>
    rw [hg] at h8
    simp only [Bool.and_eq_true, decide_eq_true_eq, Bool.not_eq_true', List.any_eq_true] at h8
    obtain ⟨⟨⟨g1, g2⟩, g3⟩, x, hx, ⟨⟨x1, x2⟩, x3⟩, x4⟩ := h8
    exact ⟨c, g, x, h, Tg.follows h1, h2, h3, hg, hx, x4, x1, x2, h4, g1, g2, x3, h5, h6, g3, h7⟩

/-- The loop is not started again: when its first query fails once, it returns, and no goroutine is ever started, for no leased version, while the node goes on. -/
theorem C110_never_restarted_counterexample : ∃ c, TgReachable 20 (fun _ => 0) c ∧ c.ts = [.ret [], .ret []] ∧
    c.base.sys.world.hist.now Demo.kb = some ⟨Demo.kb, [2], 30, 4, 4⟩ ∧
    c.base.sys.world.hist.now [0x2f, 0x64] = some ⟨[0x2f, 0x64], [9], 5, 8, 8⟩ ∧ c.base.node.pollRevision = 8 := by
  obtain ⟨c, h, hP⟩ := tgrun_check (N := 20) (rnd := fun _ => 0) (sc := ttlScenario)
    (as := [.go 0, .exec 1 (.fail .canceled), .stop 1, .calls [(.txn true (createTxn [0x2f, 0x64] [9] 5), oks 1)], .node .pollStart, .node (.pollExec .ok),
      .node .pollDone])
    (fun c => decide (c.ts.length = 2) && c.is 0 Tt.isRet && c.is 1 Tt.isRet &&
      decide (c.base.sys.world.hist.now Demo.kb = some ⟨Demo.kb, [2], 30, 4, 4⟩) &&
      decide (c.base.sys.world.hist.now [0x2f, 0x64] = some ⟨[0x2f, 0x64], [9], 5, 8, 8⟩) && decide (c.base.node.pollRevision = 8)) (by decide +kernel)
  simp only [Bool.and_eq_true, decide_eq_true_eq] at hP
  obtain ⟨⟨⟨⟨⟨h1, h2⟩, h3⟩, h4⟩, h5⟩, h6⟩ := hP
  refine ⟨c, h, ?_, h4, h5, h6⟩
  have e0 := Tg.isRet h2
  have e1 := Tg.isRet h3
  match hc : c.ts, h1 with
  | [a, b], _ =>
    rw [hc] at e0 e1
    simp at e0 e1
    rw [e0, e1]

end Verif.Go
