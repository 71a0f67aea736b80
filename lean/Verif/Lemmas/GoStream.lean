import Verif.Lemmas.GoBackend
import Verif.Model.GoStream
/-!
# What the texts of `/repo/pkg/limited/watch.go` do
-/

namespace Verif.Go

open Verif.GoText

/-! ### Loops -/

/-- A loop with a state. -/
theorem loopS_eq {A : Type} (cnd : Store Ext → (V → Store Ext → Ts) → Ts) (body : Store Ext → (Store Ext → Ts) → (Store Ext → Ts) → Ts)
    (k : Store Ext → Ts) (st : A → Store Ext) (step : A → (A → Ts) → Ts)
    (h : ∀ a (K : Store Ext → Ts), (cnd (st a) fun c s => match c with | .bool b => bif b then body s K k else k s | _ => .stuck) = step a fun a' => K (st a')) :
    ∀ N a, loopS cnd body k N (st a) = Nat.rec (fun _ => .out) (fun _ r a => step a r) N a := by
  intro N
  induction N with
  | zero => intro a; rfl
  | succ n ih =>
    intro a
    refine (h a fun s => loopS cnd body k n s).trans ?_
    exact congrArg (step a) (funext ih)

/-- `range` over a list, with a store that does not change. -/
def foldS {α : Type} (G : α → Ts → Ts) (K : Ts) : List α → Ts
  | [] => K
  | x :: l => G x (foldS G K l)

theorem rangeS_eq {α : Type} (enc : α → V) (st : Store Ext) (F : Nat → V → Store Ext → (Store Ext → Ts) → (Store Ext → Ts) → Ts) (k : Store Ext → Ts)
    (G : α → Ts → Ts) (h : ∀ i x kc kb, F i (enc x) st kc kb = G x (kc st)) :
    ∀ l i, rangeStd F k (l.map enc) i st = foldS G (k st) l := by
  intro l
  induction l with
  | nil => intro i; rfl
  | cons x l ih =>
    intro i
    refine (h i x _ _).trans ?_
    exact congrArg (G x) (ih (i + 1))

theorem cond_congrS {b : Bool} {x y x' y' : Ts} (h : x = x') (h' : y = y') : cond b x y = cond b x' y' := by rw [h, h']

theorem send_congr {r : V} {x x' : Ts} {y y' : ApiErr → Ts} (h : x = x') (h' : ∀ e, y e = y' e) : Ts.send r x y = .send r x' y' := by
  rw [h, funext h']

/-- An error as a value. -/
def optApiErrV : Option ApiErr → V
  | none => .nil
  | some e => apiErrV e

/-! ### `sendUpdates` -/

/-- One round of the loop of `sendUpdates`. -/
def updRoundT (k : Option ApiErr → Ts) (p : Int × List Event) (K : Ts) : Ts :=
  .setReport p.1 false (.getRev fun r =>
    .send (encResponse { revision := r, watchId := p.1, events := p.2 }) K fun e => .unlock (k (some e)))

/-- The loop of `sendUpdates`. -/
def sendUpdatesT (k : Option ApiErr → Ts) : List (Int × List Event) → Ts := foldS (updRoundT k) (.unlock (k none))

theorem sendUpdates_tree (N n : Nat) (us : List (Int × List Event)) (k : List V → Ts) :
    streamCalls ctlS N (n + 2) n!"watchStream" n!"sendUpdates" [streamV, .list (us.map encUpdateOf)] k =
      .lock (sendUpdatesT (fun e => k [optApiErrV e]) us) := by
  generalize hct : ctlS = ct
  go_nf
  refine congrArg Ts.lock ?_
  go_nf
  go_name F k'
  subst hct
  have e : k' { vars := [streamV, .list (us.map encUpdateOf), .nil], defers := [.meth (.ext (.st .mutex)) n!"Unlock" []] } = .unlock (k [.nil]) := by
    subst hk'
    kernel_rfl
  refine (rangeS_eq encUpdateOf { vars := [streamV, .list (us.map encUpdateOf), .nil], defers := [.meth (.ext (.st .mutex)) n!"Unlock" []] } F k'
    (updRoundT fun e => k [optApiErrV e]) (fun i p kc kb => ?_) us 0).trans ?_
  · subst hF
    clear e hk'
    kernel_rfl
  · rw [e]
    rfl

/-! ### `sendProgress` -/

/-- One round of the loop of `sendProgress`. -/
def progRoundT (k : Option ApiErr → Ts) (p : Int × Bool) (K : Ts) : Ts :=
  cond p.2 (.getRev fun r => .send (encResponse { revision := r, watchId := p.1 }) K fun e => .unlock (k (some e))) K

/-- The loop of `sendProgress`. -/
def sendProgressT (k : Option ApiErr → Ts) : List (Int × Bool) → Ts := foldS (progRoundT k) (.unlock (k none))

/-- An entry of the map. -/
def entryV (p : Int × Bool) : V := .list [.int p.1, .bool p.2]

theorem sendProgress_tree (N n : Nat) (k : List V → Ts) :
    streamCalls ctlS N (n + 2) n!"watchStream" n!"sendProgress" [streamV] k =
      .lock (.getReport fun l => sendProgressT (fun e => k [optApiErrV e]) l) := by
  generalize hct : ctlS = ct
  go_nf
  refine congrArg Ts.lock ?_
  go_nf
  refine congrArg Ts.getReport (funext fun l => ?_)
  go_nf
  go_name F k'
  subst hct
  have e : k' { vars := [streamV, .nil], defers := [.meth (.ext (.st .mutex)) n!"Unlock" []] } = .unlock (k [.nil]) := by
    subst hk'
    kernel_rfl
  refine (rangeS_eq entryV { vars := [streamV, .nil], defers := [.meth (.ext (.st .mutex)) n!"Unlock" []] } F k'
    (progRoundT fun e => k [optApiErrV e]) (fun i p kc kb => ?_) l 0).trans ?_
  · subst hF
    clear e hk'
    obtain ⟨id, b⟩ := p
    cases b
    · kernel_rfl
    · kernel_rfl
  · rw [e]
    rfl

/-! ### `Create`, `Close`, `RequestProgress` -/

/-- `Send` under the lock, and the end of the section. -/
def replyT (r : WatchResponse) (k : Option ApiErr → Ts) : Ts := .send (encResponse r) (.unlock (k none)) fun e => .unlock (k (some e))

/-- `Create` after `Watch`. -/
def createdT (id : Int) (k : Option ApiErr → Ts) : Ts := .setReport id true (replyT { revision := 0, watchId := id, created := true } k)

/-- `Create` after `Watch` was refused. -/
def refusedT (cur : Int) (k : Option ApiErr → Ts) : Ts := replyT { revision := cur, watchId := -1, created := true, canceled := true } k

/-- `Create` after `Watch` failed. -/
def failedT (k : Option ApiErr → Ts) : Ts := .getRev fun r => replyT { revision := r, watchId := 0, canceled := true } k

/-- `Create`. -/
def createT (id : Int) (lo hi : List UInt8) (start : Int) (k : Option ApiErr → Ts) : Ts :=
  .lock (.watch id lo hi start (createdT id k) (fun _ cur => refusedT cur k) fun _ => failedT k)

theorem create_tree (N n : Nat) (id : Int) (lo hi : List UInt8) (start : Int) (k : List V → Ts) :
    streamCalls ctlS N (n + 2) n!"watchStream" n!"Create" [streamV, .int id, .bytes lo, .bytes hi, .int start] k =
      createT id lo hi start fun e => k [optApiErrV e] := by
  kernel_rfl

/-- `Close`. -/
def closeT (id : Int) (k : Ts) : Ts := .unwatch id (.lock (.delReport id (.unlock k)))

theorem close_tree (N n : Nat) (id : Int) (k : List V → Ts) :
    streamCalls ctlS N (n + 2) n!"watchStream" n!"Close" [streamV, .int id] k = closeT id (k []) := by
  kernel_rfl

/-- `RequestProgress`. -/
def askProgressT (k : Option ApiErr → Ts) : Ts := .lock (.getRev fun r => replyT { revision := r, watchId := -1 } k)

theorem requestProgress_tree (N n : Nat) (k : List V → Ts) :
    streamCalls ctlS N (n + 2) n!"watchStream" n!"RequestProgress" [streamV] k = askProgressT fun e => k [optApiErrV e] := by
  kernel_rfl

/-! ### The loops -/

/-- Go on with `r`, or return the error. -/
def endK (r : Ts) : Option ApiErr → Ts
  | none => r
  | some e => .ret [apiErrV e]

/-- An iteration of `ServeUpdates`. -/
def updatesStepT (r : Ts) : Ts :=
  .recvUpdate (fun u => .setRev u.revision (.lock (sendUpdatesT (endK r) u.updates))) (.ret [.nil])

/-- `ServeUpdates`. -/
def updatesT : Nat → Ts := Nat.rec .out fun _ r => updatesStepT r

theorem sendUpdatesT_congr {k k' : Option ApiErr → Ts} (h : ∀ e, k e = k' e) (l : List (Int × List Event)) : sendUpdatesT k l = sendUpdatesT k' l := by
  rw [funext h]

theorem updatesT_unit (N : Nat) : (Nat.rec (fun _ => .out) (fun _ r a => updatesStepT (r a)) N : Unit → Ts) () = updatesT N := by
  induction N with
  | zero => rfl
  | succ n ih => exact congrArg updatesStepT ih

theorem recvUpdate_congr {f f' : GroupUpdate → Ts} {t t' : Ts} (h : ∀ u, f u = f' u) (h' : t = t') : Ts.recvUpdate f t = .recvUpdate f' t' := by
  rw [funext h, h']

theorem updates_tree (N n : Nat) (k0 : List V → Ts) (hk : ∀ vs, k0 vs = .ret vs) :
    streamCalls ctlS N (n + 3) n!"watchStream" n!"ServeUpdates" [streamV] k0 = updatesT N := by
  obtain rfl : k0 = Ts.ret := funext hk
  have hL := sendUpdates_tree N n
  refine Eq.trans (b := Stream.f_ServeUpdates.run (streamHost ctlS N (streamCalls ctlS N (n + 2))) [streamV] fun vs _ => .ret vs) (by kernel_rfl) ?_
  generalize streamCalls ctlS N (n + 2) = L at hL ⊢
  generalize hct : ctlS = ct
  have hl : ct.loop = loopS := by rw [← hct]; rfl
  go_nf
  go_name F G k
  rw [hl]
  refine (loopS_eq F G k (fun _ : Unit => { vars := [streamV, .nil] }) (fun a r => updatesStepT (r a)) ?_ N ()).trans (updatesT_unit N)
  intro a K
  subst hF hG hk
  go_env
  go_nf
  refine recvUpdate_congr (fun u => ?_) ?_
  · generalize hus : u.updates = us
    obtain ⟨rev, us'⟩ := u
    subst hus
    have hL := hL us'
    unfold encUpdates
    generalize List.map encUpdateOf us' = l at hL ⊢
    go_env
    go_nf
    refine congrArg (Ts.setRev _) ?_
    go_env
    go_nf
    refine (hL _).trans (congrArg Ts.lock (sendUpdatesT_congr (fun e => ?_) _))
    cases e with
    | none => go_env; go_nf; rfl
    | some e => go_env; go_nf; rfl
  · go_env
    go_nf
    rfl

/-- An iteration of `ServeProgress`. -/
def progressStepT (r : Ts) : Ts :=
  .select (.lock (.getReport fun l => sendProgressT (endK r) l)) (.ret [.nil])

/-- `ServeProgress`. -/
def progressT : Nat → Ts := Nat.rec .out fun _ r => progressStepT r

theorem sendProgressT_congr {k k' : Option ApiErr → Ts} (h : ∀ e, k e = k' e) (l : List (Int × Bool)) : sendProgressT k l = sendProgressT k' l := by
  rw [funext h]

theorem progressT_unit (N : Nat) : (Nat.rec (fun _ => .out) (fun _ r a => progressStepT (r a)) N : Unit → Ts) () = progressT N := by
  induction N with
  | zero => rfl
  | succ n ih => exact congrArg progressStepT ih

theorem select_congr {a a' b b' : Ts} (h : a = a') (h' : b = b') : Ts.select a b = .select a' b' := by rw [h, h']

theorem progress_tree (N n : Nat) (k0 : List V → Ts) (hk : ∀ vs, k0 vs = .ret vs) :
    streamCalls ctlS N (n + 3) n!"watchStream" n!"ServeProgress" [streamV] k0 = progressT N := by
  obtain rfl : k0 = Ts.ret := funext hk
  have hL := sendProgress_tree N n
  refine Eq.trans (b := Stream.f_ServeProgress.run (streamHost ctlS N (streamCalls ctlS N (n + 2))) [streamV] fun vs _ => .ret vs) (by kernel_rfl) ?_
  generalize streamCalls ctlS N (n + 2) = L at hL ⊢
  generalize hct : ctlS = ct
  have hl : ct.loop = loopS := by rw [← hct]; rfl
  go_nf
  go_name F G k
  rw [hl]
  refine (loopS_eq F G k (fun _ : Unit => { vars := [streamV, .nil, .ext (.st .ticker)], defers := [.meth (.ext (.st .ticker)) n!"Stop" []] }) (fun a r => progressStepT (r a)) ?_ N ()).trans (progressT_unit N)
  intro a K
  subst hF hG hk
  go_env
  go_nf
  refine select_congr ?_ ?_
  · go_env
    go_nf
    refine (hL _).trans (congrArg Ts.lock (congrArg Ts.getReport (funext fun l => sendProgressT_congr (fun e => ?_) l)))
    cases e with
    | none => go_env; go_nf; rfl
    | some e => go_env; go_nf; rfl
  · go_env
    go_nf
    rfl

/-- What `ServeRequests` does with a message. -/
def requestStepT (next : Int) (m : WatchMsg) (r : Int → Ts) : Ts :=
  match m with
  | .create key rangeEnd start wid =>
    if wid ≠ 0 then .ret [apiErrV .unsupported]
    else createT next key (watchRangeEnd key rangeEnd) start (endK (r (next + 1)))
  | .cancel id => closeT id (r next)
  | .progress => askProgressT (endK (r next))
  | .empty => r next

/-- An iteration of `ServeRequests`. -/
def requestsStepT (next : Int) (r : Int → Ts) : Ts := .recv (fun m => requestStepT next m r) fun e => .ret [apiErrV e]

/-- `ServeRequests`. -/
def requestsT : Nat → Int → Ts := Nat.rec (fun _ => .out) fun _ r n => requestsStepT n r

theorem recv_congr {f f' : WatchMsg → Ts} {g g' : ApiErr → Ts} (h : ∀ u, f u = f' u) (h' : ∀ e, g e = g' e) : Ts.recv f g = .recv f' g' := by
  rw [funext h, funext h']

theorem createT_congr {k k' : Option ApiErr → Ts} (h : ∀ e, k e = k' e) (id : Int) (lo hi : List UInt8) (s : Int) : createT id lo hi s k = createT id lo hi s k' := by
  rw [funext h]

theorem askProgressT_congr {k k' : Option ApiErr → Ts} (h : ∀ e, k e = k' e) : askProgressT k = askProgressT k' := by
  rw [funext h]

theorem request_create (next : Int) (key re : List UInt8) (start wid : Int) (r : Int → Ts) :
    requestStepT next (.create key re start wid) r =
      cond (!decide (wid = 0)) (.ret [apiErrV .unsupported])
        (cond (decide ((re.length : Int) = 0)) (createT next key (key ++ [0]) start (endK (r (next + 1))))
          (createT next key re start (endK (r (next + 1))))) := by
  by_cases h : wid = 0
  · by_cases h' : re.length = 0
    · have h2 : (re.length : Int) = 0 := by omega
      simp [requestStepT, watchRangeEnd, h, h']
    · have h2 : ¬ (re.length : Int) = 0 := by omega
      have h3 : ¬ re = [] := by rintro rfl; exact h' rfl
      simp [requestStepT, watchRangeEnd, h, h3]
  · simp [requestStepT, h]

theorem requests_tree (N n : Nat) (k0 : List V → Ts) (hk : ∀ vs, k0 vs = .ret vs) :
    streamCalls ctlS N (n + 3) n!"watchStream" n!"ServeRequests" [streamV] k0 = requestsT N 1 := by
  obtain rfl : k0 = Ts.ret := funext hk
  have hC := create_tree N n
  have hX := close_tree N n
  have hP := requestProgress_tree N n
  have hU : ∀ k, streamCalls ctlS N (n + 2) 0 n!"unsupported" [.bytes [87, 97, 116, 99, 104, 73, 100]] k = k [apiErrV .unsupported] := fun k => by kernel_rfl
  refine Eq.trans (b := Stream.f_ServeRequests.run (streamHost ctlS N (streamCalls ctlS N (n + 2))) [streamV] fun vs _ => .ret vs) (by kernel_rfl) ?_
  generalize streamCalls ctlS N (n + 2) = L at hC hX hP hU ⊢
  generalize hct : ctlS = ct
  have hl : ct.loop = loopS := by rw [← hct]; rfl
  go_nf
  go_name F G k
  rw [hl]
  refine loopS_eq F G k (fun i : Int => { vars := [streamV, .nil, .int i] }) requestsStepT ?_ N 1
  intro i K
  subst hF hG hk
  go_env
  go_nf
  refine recv_congr (fun m => ?_) (fun e => ?_)
  · cases m with
    | create key re start wid =>
      unfold encMsg
      refine Eq.trans ?_ (request_create i key re start wid _).symm
      go_env
      go_nf
      refine cond_congrS ?_ ?_
      · refine (hU _).trans ?_
        go_env
        go_nf
        rfl
      · go_env
        go_nf
        refine cond_congrS ?_ ?_
        · go_env
          go_nf
          refine (hC _ _ _ _ _).trans (createT_congr (fun e => ?_) _ _ _ _)
          cases e with
          | none => go_env; go_nf; rfl
          | some e => go_env; go_nf; rfl
        · go_env
          go_nf
          refine (hC _ _ _ _ _).trans (createT_congr (fun e => ?_) _ _ _ _)
          cases e with
          | none => go_env; go_nf; rfl
          | some e => go_env; go_nf; rfl
    | cancel id =>
      unfold encMsg
      go_env
      go_nf
      refine (hX _ _).trans (congrArg (closeT id) ?_)
      go_env
      go_nf
      rfl
    | progress =>
      unfold encMsg
      go_env
      go_nf
      refine (hP _).trans (askProgressT_congr fun e => ?_)
      cases e with
      | none => go_env; go_nf; rfl
      | some e => go_env; go_nf; rfl
    | empty =>
      unfold encMsg
      go_env
      go_nf
      rfl
  · go_env
    go_nf
    rfl

/-! ### The handler -/

theorem handler_tree (N : Nat) :
    handlerGo N = .openGroup (.spawn (updatesT N) (.spawn (progressT N) (.spawn (requestsT N 1) (.await fun v => .ret [v])))) fun e => .ret [apiErrV e] := by
  unfold handlerGo
  have h1 := updates_tree N 2 .ret fun _ => rfl
  have h2 := progress_tree N 2 .ret fun _ => rfl
  have h3 := requests_tree N 2 .ret fun _ => rfl
  refine Eq.trans (b := Stream.f_Watch.run (streamHost ctlS N (streamCalls ctlS N 5)) [.ext (.st .bridge), .ext (.st .server)] fun vs _ => .ret vs) (by kernel_rfl) ?_
  generalize streamCalls ctlS N 5 = L at h1 h2 h3 ⊢
  rw [← h1, ← h2, ← h3]
  kernel_rfl

end Verif.Go
