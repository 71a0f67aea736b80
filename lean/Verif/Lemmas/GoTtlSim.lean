import Verif.Lemmas.GoTtl
import Verif.Lemmas.TtlInv
/-!
# Goroutines running the text of `ttl.go` simulate the model of the TTL loop
-/

namespace Verif.Go

open Verif.GoText

/-! ### Arithmetic -/

theorem wrap64_add (a b : Int) : wrap64 (wrap64 a + b) = wrap64 (a + b) := by
  unfold wrap64
  omega

theorem wrap64_lease (l : Int) : wrap64 (l * 1000000000) = leaseDelay l := rfl

theorem wrap64_jitter (l : Int) (j : Nat) : wrap64 (l * 1000000000 + (j : Int) * 1000000) = jitteredDelay l j := by
  unfold jitteredDelay leaseDelay
  rw [wrap64_add]

/-! ### Timers -/

/-- The timer for a row. -/
def rowTimer (r : Row) : Timer := { key := r.name, rev := r.id, lease := r.lease, delay := leaseDelay r.lease }

theorem listTimers_eq (rows : List Row × Option Nat) : listTimers rows = (scanAll id rows).map rowTimer := by
  obtain ⟨l, n⟩ := rows
  cases n with
  | none => show l.map _ = (l.map id).map rowTimer; rw [List.map_id]; rfl
  | some n => show (l.take n).map _ = ((l.take n).map id).map rowTimer; rw [List.map_id]; rfl

/-- The timer for an event. -/
def evTimer (e : Event) (j : Nat) : Timer := { key := e.kv.key, rev := e.kv.modRev, lease := e.kv.lease, delay := jitteredDelay e.kv.lease j }

/-- The timers for events, when so many random numbers were drawn before. -/
def esTimers (rnd : Nat → Nat) : Nat → List Event → List Timer
  | _, [] => []
  | d, e :: es => if 0 < e.kv.lease then evTimer e (rnd d % 1000) :: esTimers rnd (d + 1) es else esTimers rnd d es

theorem esTimers_eq (rnd : Nat → Nat) : ∀ (es : List Event) (d : Nat),
    esTimers rnd d es = (es.filter fun e => decide (e.kv.lease > 0)).mapIdx fun i e => evTimer e (rnd (d + i) % 1000) := by
  intro es
  induction es with
  | nil => intro d; rfl
  | cons e es ih =>
    intro d
    unfold esTimers
    by_cases h : 0 < e.kv.lease
    · rw [if_pos h, ih]
      rw [List.filter_cons_of_pos (by simpa using h), List.mapIdx_cons]
      simp [Nat.add_assoc, Nat.add_comm 1]
    · rw [if_neg h, ih]
      rw [List.filter_cons_of_neg (by simpa using h)]

theorem eventTimers_eq (rnd : Nat → Nat) (d : Nat) (u : GroupUpdate) :
    eventTimers (fun i => rnd (d + i) % 1000) u = esTimers rnd d (u.updates.flatMap (·.2)) := (esTimers_eq rnd _ d).symm

theorem foldT_append {α : Type} (G : α → Tt → Tt) (K : Tt) (l l' : List α) : foldT G K (l ++ l') = foldT G (foldT G K l') l := by
  induction l with
  | nil => rfl
  | cons x l ih => exact congrArg (G x) ih

theorem updT_eq (N : Nat) (K : Tt) (u : GroupUpdate) : updT N K u = foldT (eventT N) K (u.updates.flatMap (·.2)) := by
  unfold updT
  generalize u.updates = us
  induction us with
  | nil => rfl
  | cons p us ih =>
    rw [List.flatMap_cons, foldT_append, ← ih]
    rfl

/-! ### Where the goroutine of the loop is -/

/-- After `CurrentRevision` of the driver. -/
def currentT (N : Nat) (start : Int) : Tt := .list (Driver.listTTL start) (listedT N start) fun _ => .ret []

/-- The goroutine of the loop, the timers that it is still to start, the phase of the model. -/
inductive LoopAt (N : Nat) (rnd : Nat → Nat) (n : Node) (drawn : Nat) : Tt → List Timer → TtlPhase → Prop where
  | current (p : Prog (Except ApiErr Int)) : LoopAt N rnd n drawn (.current p (currentT N) fun _ => .ret []) [] (.current p)
  | list (start : Int) (p : Prog (Except ApiErr (List Row × Option Nat))) : LoopAt N rnd n drawn (.list p (listedT N start) fun _ => .ret []) [] (.list start p)
  | rows (start : Int) (m : Nat) (l : List Row) : LoopAt N rnd n drawn (rowsT N (followT N start) m l) (l.map rowTimer) (.group start)
  | watch (start : Int) (g : Nat) : LoopAt N rnd n drawn (.watch g 1 [0] [255] start (recvT N g N) fun _ => recvT N g N) [] (.watch start g)
  | watching (start : Int) (g : Nat) : LoopAt N rnd n drawn (.watching g (recvT N g N) fun _ => recvT N g N) [] (.serve start g)
  | serve (start : Int) (g m : Nat) (es : List Event) (gr : Group) (hg : n.groupAt g = some gr) (idle : gr.call = .idle) :
      LoopAt N rnd n drawn (foldT (eventT N) (recvT N g m) es) (esTimers rnd drawn es) (.serve start g)
  | draw (start : Int) (g m : Nat) (es : List Event) (gr : Group) (hg : n.groupAt g = some gr) (idle : gr.call = .idle) (x : Timer) (d : Int)
      (hd : wrap64 d = x.delay) :
      LoopAt N rnd n drawn (.spawn (timerT N x.key x.rev d) (foldT (eventT N) (recvT N g m) es)) (x :: esTimers rnd drawn es) (.serve start g)
  | ret (rest : List Timer) (ph : TtlPhase) : LoopAt N rnd n drawn (.ret []) rest ph

/-- The same, by what the goroutine does next. -/
inductive LoopTop (N : Nat) (rnd : Nat → Nat) (n : Node) (drawn : Nat) : Tt → List Timer → TtlPhase → Prop where
  | ret (rest : List Timer) (ph : TtlPhase) : LoopTop N rnd n drawn (.ret []) rest ph
  | out (rest : List Timer) (ph : TtlPhase) : LoopTop N rnd n drawn .out rest ph
  | current (p : Prog (Except ApiErr Int)) : LoopTop N rnd n drawn (.current p (currentT N) fun _ => .ret []) [] (.current p)
  | list (start : Int) (p : Prog (Except ApiErr (List Row × Option Nat))) : LoopTop N rnd n drawn (.list p (listedT N start) fun _ => .ret []) [] (.list start p)
  | spawn (x : Timer) (d : Int) (K : Tt) (rest : List Timer) (ph : TtlPhase) (hd : wrap64 d = x.delay) (hK : LoopAt N rnd n drawn K rest ph) :
      LoopTop N rnd n drawn (.spawn (timerT N x.key x.rev d) K) (x :: rest) ph
  | openGroup (start : Int) :
      LoopTop N rnd n drawn (.openGroup (fun g => .watch g 1 [0] [255] start (recvT N g N) fun _ => recvT N g N) fun _ => .ret []) [] (.group start)
  | watch (start : Int) (g : Nat) : LoopTop N rnd n drawn (.watch g 1 [0] [255] start (recvT N g N) fun _ => recvT N g N) [] (.watch start g)
  | watching (start : Int) (g : Nat) : LoopTop N rnd n drawn (.watching g (recvT N g N) fun _ => recvT N g N) [] (.serve start g)
  | recv (start : Int) (g m : Nat) (gr : Group) (hg : n.groupAt g = some gr) (idle : gr.call = .idle) :
      LoopTop N rnd n drawn (.recvUpdate g (updT N (recvT N g m)) (.ret [])) [] (.serve start g)
  | rand (start : Int) (g m : Nat) (e : Event) (es : List Event) (gr : Group) (hg : n.groupAt g = some gr) (idle : gr.call = .idle) :
      LoopTop N rnd n drawn
        (.rand 1000 fun j => .spawn (timerT N e.kv.key e.kv.modRev (e.kv.lease * 1000000000 + j * 1000000)) (foldT (eventT N) (recvT N g m) es))
        (evTimer e (rnd drawn % 1000) :: esTimers rnd (drawn + 1) es) (.serve start g)

theorem LoopAt.top {N : Nat} {rnd : Nat → Nat} {n : Node} {drawn : Nat} {L : Tt} {rest : List Timer} {ph : TtlPhase}
    (h : LoopAt N rnd n drawn L rest ph) : LoopTop N rnd n drawn L rest ph := by
  cases h with
  | current p => exact .current p
  | list start p => exact .list start p
  | rows start m l =>
    cases m with
    | zero => exact .out _ _
    | succ m =>
      cases l with
      | nil => exact .openGroup start
      | cons r l => exact .spawn (rowTimer r) _ _ _ _ (wrap64_lease _) (.rows start m l)
  | watch start g => exact .watch start g
  | watching start g => exact .watching start g
  | serve start g m es gr hg idle =>
    induction es with
    | nil =>
      cases m with
      | zero => exact .out _ _
      | succ m => exact .recv start g m gr hg idle
    | cons e es ih =>
      show LoopTop N rnd n drawn (eventT N e (foldT (eventT N) (recvT N g m) es)) (esTimers rnd drawn (e :: es)) _
      unfold eventT esTimers
      by_cases hl : 0 < e.kv.lease
      · rw [if_pos hl, decide_eq_true hl]
        exact .rand start g m e es gr hg idle
      · rw [if_neg hl, decide_eq_false hl]
        exact ih
  | draw start g m es gr hg idle x d hd => exact .spawn x d _ _ _ hd (.serve start g m es gr hg idle)
  | ret rest ph => exact .ret rest ph

/-- Another node: the call of the group of the loop stays idle. -/
theorem LoopAt.node {N : Nat} {rnd : Nat → Nat} {n n' : Node} {drawn : Nat} {L : Tt} {rest : List Timer} {ph : TtlPhase}
    (h : LoopAt N rnd n drawn L rest ph)
    (hn : ∀ i g, ph.index? = some i → n.groupAt i = some g → g.call = .idle → ∃ g', n'.groupAt i = some g' ∧ g'.call = .idle) :
    LoopAt N rnd n' drawn L rest ph := by
  cases h with
  | current p => exact .current p
  | list start p => exact .list start p
  | rows start m l => exact .rows start m l
  | watch start g => exact .watch start g
  | watching start g => exact .watching start g
  | serve start g m es gr hg idle =>
    obtain ⟨g', h1, h2⟩ := hn g gr rfl hg idle
    exact .serve start g m es g' h1 h2
  | draw start g m es gr hg idle x d hd =>
    obtain ⟨g', h1, h2⟩ := hn g gr rfl hg idle
    exact .draw start g m es g' h1 h2 x d hd
  | ret rest ph => exact .ret rest ph

/-- Nobody else watches on the group: its call stays idle. -/
theorem groupMove_idle {w w' : World} {g g' : Group} (m : GroupMove w w' g g') (hu : g'.used = g.used) (hi : g.call = .idle) : g'.call = .idle := by
  cases m with
  | same => exact hi
  | publish rev es hin hcur =>
    rw [← hi]
    unfold Group.publishOrDrop Group.publish
    simp only
    split
    · rename_i h; split at h
      · cases h; rfl
      · split at h
        · cases h; rfl
        · cases h
    · rename_i h; split at h
      · cases h
      · split at h
        · cases h
        · cases h
          split <;> rfl
  | step h =>
    cases h with
    | watch id lo hi' start idle fresh ne =>
      exfalso
      unfold Group.watch at hu
      simp only at hu
      split at hu <;> simp at hu
    | checkExec a eff k o c => rw [hi] at c; cases c
    | checked a r c => rw [hi] at c; cases c
    | queryExec a eff k o c => rw [hi] at c; cases c
    | queried a r c => rw [hi] at c; cases c
    | unwatch => exact hi
    | recv => exact hi
    | cancel => exact hi
    | afterFunc => exact hi

/-! ### Where the goroutine of a timer is -/

/-- The goroutine of a timer. -/
inductive TimerSt (N : Nat) (log : List TtlEv) (i : Nat) (x : Timer) : Tt → Prop where
  | wait : TimerSt N log i x (.wait x.delay (.ret []) (tryT x.key x.rev N))
  | out (h : N ≠ 0 → .waited i x.delay ∈ log ∧ .asked i x.key x.rev ∈ log) : TimerSt N log i x .out
  | delete (m : Nat) (h : .waited i x.delay ∈ log) :
      TimerSt N log i x (.delete x.key x.rev (fun _ _ => .ret []) fun _ => .pause false (tryT x.key x.rev m) (.ret []))
  | deleting (m : Nat) (h : .waited i x.delay ∈ log) (ha : .asked i x.key x.rev ∈ log) :
      TimerSt N log i x (.deleting (fun _ _ => .ret []) fun _ => .pause false (tryT x.key x.rev m) (.ret []))
  | pause (m : Nat) (h : .waited i x.delay ∈ log) (ha : .asked i x.key x.rev ∈ log) : TimerSt N log i x (.pause false (tryT x.key x.rev m) (.ret []))
  | ret (h : .stopped i ∈ log ∨ .waited i x.delay ∈ log ∧ .asked i x.key x.rev ∈ log ∧ .done i ∈ log) : TimerSt N log i x (.ret [])

theorem TimerSt.try_ {N : Nat} {log : List TtlEv} {i : Nat} {x : Timer} (m : Nat) (h : .waited i x.delay ∈ log)
    (ha : m ≠ N → .asked i x.key x.rev ∈ log) : TimerSt N log i x (tryT x.key x.rev m) := by
  cases m with
  | zero => exact .out fun hn => ⟨h, ha (fun e => hn e.symm)⟩
  | succ m => exact .delete m h

theorem TimerSt.mono {N : Nat} {log log' : List TtlEv} {i : Nat} {x : Timer} {w : Tt} (hl : ∀ e ∈ log, e ∈ log') (h : TimerSt N log i x w) :
    TimerSt N log' i x w := by
  cases h with
  | wait => exact .wait
  | out h => exact .out fun hn => ⟨hl _ (h hn).1, hl _ (h hn).2⟩
  | delete m h => exact .delete m (hl _ h)
  | deleting m h ha => exact .deleting m (hl _ h) (hl _ ha)
  | pause m h ha => exact .pause m (hl _ h) (hl _ ha)
  | ret h => exact .ret (h.imp (hl _) fun h => ⟨hl _ h.1, hl _ h.2.1, hl _ h.2.2⟩)

/-! ### All together -/

/-- Goroutines of timers. -/
def TimersAt (N : Nat) (log : List TtlEv) (xs : List Timer) (ws : List Tt) : Prop :=
  ∀ k w, ws[k]? = some w → ∃ x, xs[k]? = some x ∧ TimerSt N log (k + 2) x w

/-- The goroutines once the loop was started. -/
structure TtlGo (N : Nat) (rnd : Nat → Nat) (c : Tg) (t : TtlLoop) : Prop where
  at_ : ∃ L ws xs rest, c.ts = .ret [] :: L :: ws ∧ t.timers = xs ++ rest ∧ xs.length = ws.length ∧ TimersAt N c.log xs ws ∧
    LoopAt N rnd c.base.node c.drawn L rest t.phase

/-- The relation between goroutines and the model. -/
structure TtlRel (N : Nat) (rnd : Nat → Nat) (c : Tg) (t : TtlLoop) : Prop where
  reach : TReachable ⟨c.base, t⟩
  trunc : c.truncated = t.truncated
  group : c.group = t.phase.index?
  start : ∀ s g, t.phase = .serve s g → c.start = some s
  go : (c.ts = [.spawn (ttlLoopT N) (.ret [])] ∧ t = TtlLoop.init) ∨ TtlGo N rnd c t
  asked : ∀ pre i key rev post, c.log = pre ++ .asked i key rev :: post →
    ∃ k x, i = k + 2 ∧ t.timers[k]? = some x ∧ x.key = key ∧ x.rev = rev ∧ .waited i x.delay ∈ pre

theorem set_casesT {α : Type} {l : List α} {i : Nat} {a : α} {j : Nat} {x : α} (h : (l.set i a)[j]? = some x) :
    (j = i ∧ x = a) ∨ (j ≠ i ∧ l[j]? = some x) := by
  by_cases hj : j = i
  · subst hj
    have hl := (List.getElem?_eq_some_iff.1 h).1
    simp at hl
    rw [List.getElem?_set_self hl] at h
    cases h
    exact .inl ⟨rfl, rfl⟩
  · rw [List.getElem?_set_ne (fun e => hj e.symm)] at h
    exact .inr ⟨hj, h⟩

theorem TimersAt.set {N : Nat} {log log' : List TtlEv} {xs : List Timer} {ws : List Tt} (h : TimersAt N log xs ws) (hl : ∀ e ∈ log, e ∈ log')
    {k : Nat} {w : Tt} (hw : ∀ x, xs[k]? = some x → TimerSt N log' (k + 2) x w) : TimersAt N log' xs (ws.set k w) := by
  intro k' w' h'
  rcases set_casesT h' with ⟨rfl, rfl⟩ | ⟨_, h'⟩
  · have hlt : k' < ws.length := by
      have := (List.getElem?_eq_some_iff.1 h').1
      simpa using this
    obtain ⟨x, hx, _⟩ := h k' ws[k'] (List.getElem?_eq_getElem hlt)
    exact ⟨x, hx, hw x hx⟩
  · obtain ⟨x, hx, hs⟩ := h k' w' h'
    exact ⟨x, hx, hs.mono hl⟩

theorem TimersAt.mono {N : Nat} {log log' : List TtlEv} {xs : List Timer} {ws : List Tt} (h : TimersAt N log xs ws) (hl : ∀ e ∈ log, e ∈ log') :
    TimersAt N log' xs ws := fun k w hk => by
  obtain ⟨x, hx, hs⟩ := h k w hk
  exact ⟨x, hx, hs.mono hl⟩

theorem TimersAt.snoc {N : Nat} {log : List TtlEv} {xs : List Timer} {ws : List Tt} (h : TimersAt N log xs ws) (hlen : xs.length = ws.length) {x : Timer} {w : Tt}
    (hw : ∀ i, TimerSt N log i x w) : TimersAt N log (xs ++ [x]) (ws ++ [w]) := by
  intro k w' h'
  rcases Nat.lt_or_ge k ws.length with hk | hk
  · rw [List.getElem?_append_left hk] at h'
    obtain ⟨y, hy, hs⟩ := h k w' h'
    exact ⟨y, by rw [List.getElem?_append_left (by omega)]; exact hy, hs⟩
  · have : k < (ws ++ [w]).length := (List.getElem?_eq_some_iff.1 h').1
    have hk' : k = ws.length := by simp at this; omega
    subst hk'
    simp at h'
    subst h'
    exact ⟨x, by rw [← hlen]; simp, hw _⟩

/-! ### Steps -/

theorem asked_keep {log : List TtlEv} {e : TtlEv} {ts ts' : List Timer} (he : ∀ i key rev, e ≠ .asked i key rev)
    (hts : ∀ (k : Nat) (x : Timer), ts[k]? = some x → ts'[k]? = some x)
    (h : ∀ pre i key rev post, log = pre ++ .asked i key rev :: post →
      ∃ k x, i = k + 2 ∧ ts[k]? = some x ∧ x.key = key ∧ x.rev = rev ∧ TtlEv.waited i x.delay ∈ pre) :
    ∀ pre i key rev post, log ++ [e] = pre ++ .asked i key rev :: post →
      ∃ k x, i = k + 2 ∧ ts'[k]? = some x ∧ x.key = key ∧ x.rev = rev ∧ TtlEv.waited i x.delay ∈ pre := by
  intro pre i key rev post hp
  rcases List.append_eq_append_iff.1 hp with ⟨q, h1, h2⟩ | ⟨q, h1, h2⟩
  · cases q with
    | nil => simp at h2; exact absurd h2.1 (he _ _ _)
    | cons a q => simp at h2
  · cases q with
    | nil => simp at h2; exact absurd h2.1.symm (he _ _ _)
    | cons a q =>
      simp only [List.cons_append, List.cons.injEq] at h2
      obtain ⟨rfl, _⟩ := h2
      obtain ⟨k, x, h3, h4, h5⟩ := h pre i key rev q h1
      exact ⟨k, x, h3, hts _ _ h4, h5⟩

theorem asked_mono {log : List TtlEv} {ts ts' : List Timer} (hts : ∀ (k : Nat) (x : Timer), ts[k]? = some x → ts'[k]? = some x)
    (h : ∀ pre i key rev post, log = pre ++ .asked i key rev :: post →
      ∃ k x, i = k + 2 ∧ ts[k]? = some x ∧ x.key = key ∧ x.rev = rev ∧ TtlEv.waited i x.delay ∈ pre) :
    ∀ pre i key rev post, log = pre ++ .asked i key rev :: post →
      ∃ k x, i = k + 2 ∧ ts'[k]? = some x ∧ x.key = key ∧ x.rev = rev ∧ TtlEv.waited i x.delay ∈ pre := by
  intro pre i key rev post hp
  obtain ⟨k, x, h3, h4, h5⟩ := h pre i key rev post hp
  exact ⟨k, x, h3, hts _ _ h4, h5⟩

/-- Which goroutine makes a step. -/
theorem who {N : Nat} {log : List TtlEv} {L : Tt} {ws : List Tt} {xs : List Timer} (hat : TimersAt N log xs ws) {i : Nat} {T : Tt}
    (h : (Tt.ret [] :: L :: ws)[i]? = some T) (hT : T ≠ .ret []) :
    (i = 1 ∧ L = T) ∨ ∃ k x, i = k + 2 ∧ ws[k]? = some T ∧ xs[k]? = some x ∧ TimerSt N log (k + 2) x T := by
  match i with
  | 0 => simp at h; exact absurd h.symm hT
  | 1 => simp at h; exact .inl ⟨rfl, h⟩
  | k + 2 =>
    simp at h
    obtain ⟨x, hx, hs⟩ := hat k T h
    exact .inr ⟨k, x, rfl, h, hx, hs⟩

/-- The goroutine of the loop goes on; the timers are the same. -/
theorem TtlRel.loop {N : Nat} {rnd : Nat → Nat} {c : Tg} {t : TtlLoop} (r : TtlRel N rnd c t) {L L' : Tt} {ws : List Tt} {xs rest rest' : List Timer}
    (h1 : c.ts = .ret [] :: L :: ws) (_ : t.timers = xs ++ rest) (h3 : xs.length = ws.length) (h4 : TimersAt N c.log xs ws)
    {b : NSys} {t' : TtlLoop} {group : Option Nat} {start : Option Int} {drawn : Nat} {trunc : Bool} (hr : TReachable ⟨b, t'⟩) (ht : trunc = t'.truncated) (hg : group = t'.phase.index?)
    (hf : ∀ s g, t'.phase = .serve s g → start = some s) (hts : t'.timers = xs ++ rest') (hmono : ∀ (k : Nat) (x : Timer), t.timers[k]? = some x → t'.timers[k]? = some x)
    (hL : LoopAt N rnd b.node drawn L' rest' t'.phase) :
    TtlRel N rnd { base := b, ts := c.ts.set 1 L', group := group, start := start, drawn := drawn, truncated := trunc, log := c.log } t' where
  reach := hr
  trunc := ht
  group := hg
  start := hf
  go := .inr ⟨⟨L', ws, xs, rest', by rw [h1]; rfl, hts, h3, h4, hL⟩⟩
  asked := asked_mono hmono r.asked

/-- The goroutine of a timer goes on. -/
theorem TtlRel.timer {N : Nat} {rnd : Nat → Nat} {c : Tg} {t : TtlLoop} (r : TtlRel N rnd c t) {L : Tt} {ws : List Tt} {xs rest : List Timer}
    (h1 : c.ts = .ret [] :: L :: ws) (h2 : t.timers = xs ++ rest) (h3 : xs.length = ws.length) (h4 : TimersAt N c.log xs ws)
    (h5 : LoopAt N rnd c.base.node c.drawn L rest t.phase) {k : Nat} {x : Timer} (hx : xs[k]? = some x) {w : Tt} {log : List TtlEv}
    {b : NSys} (hb : b.node = c.base.node) (hr : TReachable ⟨b, t⟩)
    (hlog : ∀ e ∈ c.log, e ∈ log) (hw : TimerSt N log (k + 2) x w)
    (ha : ∀ pre i key rev post, log = pre ++ .asked i key rev :: post →
      ∃ k x, i = k + 2 ∧ t.timers[k]? = some x ∧ x.key = key ∧ x.rev = rev ∧ TtlEv.waited i x.delay ∈ pre) :
    TtlRel N rnd { base := b, ts := c.ts.set (k + 2) w, group := c.group, start := c.start, drawn := c.drawn, truncated := c.truncated, log := log } t where
  reach := hr
  trunc := r.trunc
  group := r.group
  start := r.start
  go := .inr ⟨⟨L, ws.set k w, xs, rest, by rw [h1]; rfl, h2, by simpa using h3,
    h4.set hlog (fun y hy => by rw [hx] at hy; cases hy; exact hw), by rw [hb]; exact h5⟩⟩
  asked := ha

theorem TtlRel.step {N : Nat} {rnd : Nat → Nat} {c d : Tg} {t : TtlLoop} (r : TtlRel N rnd c t) (st : TgStep rnd c d) : ∃ t', TtlRel N rnd d t' := by
  rcases r.go with ⟨hts, ht⟩ | ⟨⟨L, ws, xs, rest, h1, h2, h3, h4, h5⟩⟩
  · -- the goroutine of the loop was not started yet
    have one : ∀ {i : Nat} {T : Tt}, c.ts[i]? = some T → i = 0 ∧ T = .spawn (ttlLoopT N) (.ret []) := by
      intro i T h
      rw [hts] at h
      cases i with
      | zero => simp at h; exact ⟨rfl, h.symm⟩
      | succ i => simp at h
    have no : ∀ {i : Nat} {T : Tt}, c.ts[i]? = some T → T ≠ .spawn (ttlLoopT N) (.ret []) → False := fun h hn => hn (one h).2
    cases st with
    | env b h quiet =>
      exact ⟨t, r.reach.step (.env _ _ t h fun i g hi => quiet i g (by rw [r.group]; exact hi)), r.trunc, r.group, r.start, .inl ⟨hts, ht⟩, r.asked⟩
    | spawn i s k h =>
      obtain ⟨rfl, hk⟩ := one h
      cases hk
      subst ht
      refine ⟨_, r.reach, r.trunc, r.group, r.start, .inr ⟨⟨ttlLoopT N, [], [], [], ?_, rfl, rfl, fun k w h => (by cases h), .current _⟩⟩, r.asked⟩
      show c.ts.set 0 (.ret []) ++ [ttlLoopT N] = _
      rw [hts]; rfl
    | _ => exact (no (by assumption) (by simp)).elim
  · obtain ⟨ph, hph⟩ : ∃ ph, t.phase = ph := ⟨_, rfl⟩
    rw [hph] at h5
    have ninv := r.reach.inv.base.ninv
    have same : ∀ (k : Nat) (x : Timer), t.timers[k]? = some x → t.timers[k]? = some x := fun _ _ h => h
    have more : ∀ (l : List Timer) (k : Nat) (x : Timer), t.timers[k]? = some x → (t.timers ++ l)[k]? = some x := fun l k x h => by
      rw [List.getElem?_append_left (List.getElem?_eq_some_iff.1 h).1]; exact h
    have hkeep : ∀ (e : TtlEv) (e' : TtlEv), e' ∈ c.log → e' ∈ c.log ++ [e] := fun _ _ h => List.mem_append.2 (.inl h)
    have hlast : ∀ e : TtlEv, e ∈ c.log ++ [e] := fun e => by simp
    cases st with
    | env b h quiet =>
      have q : ∀ i g, t.phase.index? = some i → c.base.node.groupAt i = some g → _ := fun i g hi => quiet i g (by rw [r.group]; exact hi)
      refine ⟨t, r.reach.step (.env _ _ t h q), r.trunc, r.group, r.start, .inr ⟨⟨L, ws, xs, rest, h1, h2, h3, h4, ?_⟩⟩, r.asked⟩
      rw [hph]
      refine h5.node fun i g hi hg idle => ?_
      obtain ⟨g', hg', hm⟩ := h.move ninv hg
      obtain ⟨g'', hg'', _, q2, _⟩ := q i g (by rw [hph]; exact hi) hg
      rw [hg'] at hg''
      cases hg''
      exact ⟨g', hg', groupMove_idle hm q2 idle⟩
    | spawn i s k h =>
      rw [h1] at h
      rcases who h4 h (by simp) with ⟨rfl, rfl⟩ | ⟨k, x, rfl, _, _, hs⟩
      · cases h5.top with
        | spawn x d _ rest' _ hd hK =>
          refine ⟨t, r.reach, r.trunc, r.group, r.start, .inr ⟨⟨k, ws ++ [timerT N x.key x.rev d], xs ++ [x], rest', ?_, ?_, ?_, ?_, by rw [hph]; exact hK⟩⟩, r.asked⟩
          · show c.ts.set 1 k ++ [timerT N x.key x.rev d] = _
            rw [h1]; rfl
          · rw [h2]; simp
          · simp [h3]
          · refine h4.snoc h3 fun i => ?_
            unfold timerT
            rw [hd]
            exact .wait
      · cases hs
    | currentExec i eff q ok er o h =>
      obtain ⟨⟨s, n⟩, ts, gr, sr, dr, tr, log⟩ := c
      rw [h1] at h
      rcases who h4 h (by simp) with ⟨rfl, rfl⟩ | ⟨k, x, rfl, _, _, hs⟩
      · cases h5.top with
        | current p =>
          exact ⟨_, r.loop h1 h2 h3 h4 (r.reach.step (.currentExec s n t eff q o hph)) r.trunc (by rw [r.group, hph]; rfl) (fun s g h => by cases h) h2 same (.current _)⟩
      · cases hs
    | current i v ok er h =>
      rw [h1] at h
      rcases who h4 h (by simp) with ⟨rfl, rfl⟩ | ⟨k, x, rfl, _, _, hs⟩
      · cases h5.top with
        | current p =>
          exact ⟨_, r.loop h1 h2 h3 h4 (r.reach.step (.currentDone c.base t (.ok v) hph)) r.trunc (by rw [r.group, hph]; rfl) (fun s g h => by cases h) h2 same (.list _ _)⟩
      · cases hs
    | currentFails i e ok er h =>
      rw [h1] at h
      rcases who h4 h (by simp) with ⟨rfl, rfl⟩ | ⟨k, x, rfl, _, _, hs⟩
      · cases h5.top with
        | current p =>
          exact ⟨_, r.loop h1 h2 h3 h4 (r.reach.step (.currentDone c.base t (.error e) hph)) r.trunc (by rw [r.group, hph]; rfl) (fun s g h => by cases h) h2 same (.ret _ _)⟩
      · cases hs
    | listExec i eff q ok er o h =>
      obtain ⟨⟨s, n⟩, ts, gr, sr, dr, tr, log⟩ := c
      rw [h1] at h
      rcases who h4 h (by simp) with ⟨rfl, rfl⟩ | ⟨k, x, rfl, _, _, hs⟩
      · cases h5.top with
        | list start p =>
          exact ⟨_, r.loop h1 h2 h3 h4 (r.reach.step (.listExec s n t start eff q o hph)) (by rw [r.trunc]) (by rw [r.group, hph]; rfl) (fun s g h => by cases h) h2 same (.list _ _)⟩
      · cases hs
    | list i rows ok er h =>
      rw [h1] at h
      rcases who h4 h (by simp) with ⟨rfl, rfl⟩ | ⟨k, x, rfl, _, _, hs⟩
      · cases h5.top with
        | list start p =>
          refine ⟨_, r.loop h1 h2 h3 h4 (r.reach.step (.listDone c.base t start (.ok rows) hph)) r.trunc (by rw [r.group, hph]; rfl) (fun s g h => by cases h)
            (rest' := (scanAll id rows).map rowTimer) ?_ (more _) (.rows start N _)⟩
          show t.timers ++ listTimers rows = _
          rw [h2, listTimers_eq]; simp
      · cases hs
    | listFails i e ok er h =>
      rw [h1] at h
      rcases who h4 h (by simp) with ⟨rfl, rfl⟩ | ⟨k, x, rfl, _, _, hs⟩
      · cases h5.top with
        | list start p =>
          exact ⟨_, r.loop h1 h2 h3 h4 (r.reach.step (.listDone c.base t start (.error e) hph)) r.trunc (by rw [r.group, hph]; rfl) (fun s g h => by cases h) h2 same (.ret _ _)⟩
      · cases hs
    | openGroup i ok er h =>
      obtain ⟨⟨s, n⟩, ts, gr, sr, dr, tr, log⟩ := c
      rw [h1] at h
      rcases who h4 h (by simp) with ⟨rfl, rfl⟩ | ⟨k, x, rfl, _, _, hs⟩
      · cases h5.top with
        | openGroup start =>
          exact ⟨_, r.loop h1 h2 h3 h4 (r.reach.step (.openGroup s n t start hph)) r.trunc rfl (fun s g h => by cases h) h2 same (.watch _ _)⟩
      · cases hs
    | openFails i ok er e h =>
      rw [h1] at h
      rcases who h4 h (by simp) with ⟨rfl, rfl⟩ | ⟨k, x, rfl, _, _, hs⟩
      · cases h5.top with
        | openGroup start =>
          exact ⟨_, r.loop h1 h2 h3 h4 r.reach r.trunc r.group r.start h2 same (.ret _ _)⟩
      · cases hs
    | watch i id lo hi start ok er pre post g h hn idle =>
      obtain ⟨⟨s, n⟩, ts, gr, sr, dr, tr, log⟩ := c
      rw [h1] at h
      rcases who h4 h (by simp) with ⟨rfl, rfl⟩ | ⟨k, x, rfl, _, _, hs⟩
      · generalize hp : pre.length = pl at *
        cases h5.top with
        | watch start g' =>
          subst hp
          exact ⟨_, r.loop h1 h2 h3 h4 (r.reach.step (.watch s n t start pre post g _ hph hn idle rfl)) r.trunc (by rw [r.group, hph]; rfl) (fun s g h => by cases h; rfl) h2 same (.watching _ _)⟩
      · cases hs
    | watched i m g ok er h hg idle =>
      rw [h1] at h
      rcases who h4 h (by simp) with ⟨rfl, rfl⟩ | ⟨k, x, rfl, _, _, hs⟩
      · cases h5.top with
        | watching start g' =>
          exact ⟨_, r.loop h1 h2 h3 h4 r.reach r.trunc r.group r.start h2 same (by rw [hph]; exact .serve start m N [] g hg idle)⟩
      · cases hs
    | watchFailed i m g ok er e h hg idle =>
      rw [h1] at h
      rcases who h4 h (by simp) with ⟨rfl, rfl⟩ | ⟨k, x, rfl, _, _, hs⟩
      · cases h5.top with
        | watching start g' =>
          exact ⟨_, r.loop h1 h2 h3 h4 r.reach r.trunc r.group r.start h2 same (by rw [hph]; exact .serve start m N [] g hg idle)⟩
      · cases hs
    | recv i ok closed pre post g u q h hn hq =>
      obtain ⟨⟨s, n⟩, ts, gr, sr, dr, tr, log⟩ := c
      rw [h1] at h
      rcases who h4 h (by simp) with ⟨rfl, rfl⟩ | ⟨k, x, rfl, _, _, hs⟩
      · generalize hp : pre.length = pl at *
        cases h5.top with
        | recv start g' m gr' hg idle =>
          subst hp
          have := Node.groupAt_mid hn
          rw [this] at hg
          cases hg
          refine ⟨_, r.loop h1 h2 h3 h4 (r.reach.step (.recv s n t start pre post g u q (fun i => rnd (dr + i) % 1000) (fun i => Nat.mod_lt _ (by decide)) hph hn idle hq))
            r.trunc (by rw [r.group]) (fun s g h => r.start s g h) (rest' := esTimers rnd dr (u.updates.flatMap (·.2))) ?_ (more _) ?_⟩
          · show t.timers ++ eventTimers _ u = _
            rw [eventTimers_eq, h2]; simp
          · show LoopAt N rnd _ dr (updT N (recvT N pre.length m) u) _ t.phase
            rw [updT_eq, hph]
            exact .serve start _ m _ { g with queue := q, received := g.received ++ [u] } (Node.groupAt_mid rfl) idle
      · cases hs
    | closed i m ok closed h =>
      rw [h1] at h
      rcases who h4 h (by simp) with ⟨rfl, rfl⟩ | ⟨k, x, rfl, _, _, hs⟩
      · cases h5.top with
        | recv start g' m gr' hg idle =>
          exact ⟨_, r.loop h1 h2 h3 h4 r.reach r.trunc r.group r.start h2 same (.ret _ _)⟩
      · cases hs
    | rand i m k h =>
      rw [h1] at h
      rcases who h4 h (by simp) with ⟨rfl, rfl⟩ | ⟨k, x, rfl, _, _, hs⟩
      · cases h5.top with
        | rand start g m e es gr hg idle =>
          refine ⟨_, r.loop h1 h2 h3 h4 r.reach r.trunc r.group r.start h2 same ?_⟩
          rw [hph]
          exact .draw start g m es gr hg idle (evTimer e (rnd c.drawn % 1000)) _ (wrap64_jitter _ _)
      · cases hs
    | waited i dl done after h =>
      rw [h1] at h
      rcases who h4 h (by simp) with ⟨rfl, rfl⟩ | ⟨k, x, rfl, _, hx, hs⟩
      · cases h5.top
      · cases hs with
        | wait =>
          exact ⟨t, r.timer h1 h2 h3 h4 (by rw [hph]; exact h5) hx rfl r.reach (hkeep _) (.try_ _ (hlast _) (fun h => absurd rfl h)) (asked_keep (by intros; simp) same r.asked)⟩
    | waitDone i dl done after h =>
      rw [h1] at h
      rcases who h4 h (by simp) with ⟨rfl, rfl⟩ | ⟨k, x, rfl, _, hx, hs⟩
      · cases h5.top
      · cases hs with
        | wait =>
          exact ⟨t, r.timer h1 h2 h3 h4 (by rw [hph]; exact h5) hx rfl r.reach (hkeep _) (.ret (.inl (hlast _))) (asked_keep (by intros; simp) same r.asked)⟩
    | delete i key rev ok er h =>
      obtain ⟨⟨s, n⟩, ts, gr, sr, dr, tr, log⟩ := c
      rw [h1] at h
      rcases who h4 h (by simp) with ⟨rfl, rfl⟩ | ⟨k, x, rfl, _, hx, hs⟩
      · cases h5.top
      · cases hs with
        | delete m hm =>
          have hxt : t.timers[k]? = some x := by
            rw [h2, List.getElem?_append_left (List.getElem?_eq_some_iff.1 hx).1]; exact hx
          refine ⟨t, r.timer h1 h2 h3 h4 (by rw [hph]; exact h5) hx rfl (r.reach.step (.fire s n t x (List.mem_of_getElem? hxt))) (hkeep _) (.deleting m (hkeep _ _ hm) (hlast _)) ?_⟩
          intro pre i key rev post hp
          rcases List.append_eq_append_iff.1 hp with ⟨q, e1, e2⟩ | ⟨q, e1, e2⟩
          · cases q with
            | nil =>
              simp at e2 e1
              obtain ⟨⟨rfl, rfl, rfl⟩, _⟩ := e2
              exact ⟨k, x, rfl, hxt, rfl, rfl, e1 ▸ hm⟩
            | cons a q => simp at e2
          · cases q with
            | nil =>
              simp at e2 e1
              obtain ⟨⟨rfl, rfl, rfl⟩, _⟩ := e2
              exact ⟨k, x, rfl, hxt, rfl, rfl, e1 ▸ hm⟩
            | cons a q =>
              simp only [List.cons_append, List.cons.injEq] at e2
              obtain ⟨rfl, _⟩ := e2
              exact r.asked _ _ _ _ q e1
    | deleted i rr dd ok er h =>
      rw [h1] at h
      rcases who h4 h (by simp) with ⟨rfl, rfl⟩ | ⟨k, x, rfl, _, hx, hs⟩
      · cases h5.top
      · cases hs with
        | deleting m hm ha =>
          exact ⟨t, r.timer h1 h2 h3 h4 (by rw [hph]; exact h5) hx rfl r.reach (hkeep _) (.ret (.inr ⟨hkeep _ _ hm, hkeep _ _ ha, hlast _⟩)) (asked_keep (by intros; simp) same r.asked)⟩
    | deleteFails i e ok er h =>
      rw [h1] at h
      rcases who h4 h (by simp) with ⟨rfl, rfl⟩ | ⟨k, x, rfl, _, hx, hs⟩
      · cases h5.top
      · cases hs with
        | deleting m hm ha =>
          exact ⟨t, r.timer h1 h2 h3 h4 (by rw [hph]; exact h5) hx rfl r.reach (hkeep _) (.pause m (hkeep _ _ hm) (hkeep _ _ ha)) (asked_keep (by intros; simp) same r.asked)⟩
    | again i limited again stop h =>
      rw [h1] at h
      rcases who h4 h (by simp) with ⟨rfl, rfl⟩ | ⟨k, x, rfl, _, hx, hs⟩
      · cases h5.top
      · cases hs with
        | pause m hm ha =>
          exact ⟨t, r.timer h1 h2 h3 h4 (by rw [hph]; exact h5) hx rfl r.reach (fun _ h => h) (.try_ m hm (fun _ => ha)) r.asked⟩
    | stop i limited again stop h =>
      rw [h1] at h
      rcases who h4 h (by simp) with ⟨rfl, rfl⟩ | ⟨k, x, rfl, _, hx, hs⟩
      · cases h5.top
      · cases hs with
        | pause m hm ha =>
          exact ⟨t, r.timer h1 h2 h3 h4 (by rw [hph]; exact h5) hx rfl r.reach (hkeep _) (.ret (.inl (hlast _))) (asked_keep (by intros; simp) same r.asked)⟩
    | giveUp i again stop h =>
      rw [h1] at h
      rcases who h4 h (by simp) with ⟨rfl, rfl⟩ | ⟨k, x, rfl, _, hx, hs⟩
      · cases h5.top
      · cases hs

theorem TgReachable.sim {N : Nat} {rnd : Nat → Nat} {c : Tg} (h : TgReachable N rnd c) : ∃ t, TtlRel N rnd c t := by
  induction h with
  | start h =>
    refine ⟨TtlLoop.init, .start h, rfl, rfl, fun _ _ h => (by cases h), .inl ⟨?_, rfl⟩, ?_⟩
    · show [ttlGo N] = _
      rw [ttl_tree]
    · intro pre i key rev post hp
      have hp : ([] : List TtlEv) = _ := hp
      simp at hp
  | step _ st ih =>
    obtain ⟨t, r⟩ := ih
    exact r.step st

end Verif.Go
