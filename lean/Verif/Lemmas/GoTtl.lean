import Verif.Lemmas.GoNf
import Verif.Model.GoTtl
/-!
# What the text of `/repo/pkg/backend/internal/backend/ttl.go` does
-/

namespace Verif.Go

open Verif.GoText

/-- `backoff.Retry` of the deletion. -/
def tryT (key : Bytes) (rev : Int) : Nat → Tt
  | 0 => .out
  | n + 1 => .delete key rev (fun _ _ => .ret []) fun _ => .pause false (tryT key rev n) (.ret [])

/-- The goroutine `run` (`ttl.go:13-43`). -/
def timerT (N : Nat) (key : Bytes) (rev d : Int) : Tt := .wait (wrap64 d) (.ret []) (tryT key rev N)

/-- The loop over the rows (`ttl.go:66-72`). -/
def rowsT (N : Nat) (K : Tt) : Nat → List Row → Tt
  | 0, _ => .out
  | _ + 1, [] => K
  | n + 1, r :: l => .spawn (timerT N r.name r.id (r.lease * 1000000000)) (rowsT N K n l)

/-- An event (`ttl.go:89-94`). -/
def eventT (N : Nat) (e : Event) (K : Tt) : Tt :=
  cond (decide (0 < e.kv.lease))
    (.rand 1000 fun j => .spawn (timerT N e.kv.key e.kv.modRev (e.kv.lease * 1000000000 + j * 1000000)) K) K

/-- `range` over a list. -/
def foldT {α : Type} (G : α → Tt → Tt) (K : Tt) : List α → Tt
  | [] => K
  | x :: l => G x (foldT G K l)

/-- An update (`ttl.go:87-96`). -/
def updT (N : Nat) (K : Tt) (u : GroupUpdate) : Tt := foldT (fun p K => foldT (eventT N) K p.2) K u.updates

/-- The loop over the updates (`ttl.go:86-97`). -/
def recvT (N g : Nat) : Nat → Tt
  | 0 => .out
  | n + 1 => .recvUpdate g (updT N (recvT N g n)) (.ret [])

/-- After the rows. -/
def followT (N : Nat) (start : Int) : Tt :=
  .openGroup (fun g => .watch g 1 [0] [255] start (recvT N g N) fun _ => recvT N g N) fun _ => .ret []

/-- After `CurrentRevision`. -/
def listedT (N : Nat) (start : Int) (rows : List Row × Option Nat) : Tt := rowsT N (followT N start) N (scanAll id rows)

/-- The goroutine of the loop (`ttl.go:46-98`). -/
def ttlLoopT (N : Nat) : Tt :=
  .current Driver.currentRevision (fun start => .list (Driver.listTTL start) (listedT N start) fun _ => .ret []) fun _ => .ret []

/-- `Retry` of an operation that asks for a deletion. -/
theorem retryT_eq (call : V → Store Ext → (List V → Store Ext → Tt) → Tt) (f : V) (k : List V → Store Ext → Tt) (s : Store Ext) (key : Bytes) (rev : Int)
    (h : ∀ K : List V → Tt, (call f s fun vs _ => K vs) = .delete key rev (fun _ _ => K [.nil]) fun e => K [ttlErrV e])
    (hk : k [.nil] s = .ret []) (he : ∀ e, k [ttlErrV e] s = .ret []) : ∀ n, retryT call f false k s n = tryT key rev n := by
  intro n
  induction n with
  | zero => rfl
  | succ n ih =>
    refine (h fun vs => match vs with
      | [.nil] => k [.nil] s
      | [e] => .pause false (retryT call f false k s n) (k [e] s)
      | _ => .stuck).trans ?_
    show Tt.delete key rev (fun _ _ => k [.nil] s) (fun e => .pause false (retryT call f false k s n) (k [ttlErrV e] s)) = _
    rw [hk]
    simp only [he, ih]
    rfl

theorem delete_congr {key : Bytes} {rev : Int} {f f' : Int → Bool → Tt} {g g' : ApiErr → Tt} (h : ∀ r d, f r d = f' r d) (h' : ∀ e, g e = g' e) :
    Tt.delete key rev f g = .delete key rev f' g' := by
  rw [funext h', funext fun r => funext (h r)]

theorem spawn_congrL {t t' k k' : Tt} (h : t = t') (h' : k = k') : Tt.spawn t k = .spawn t' k' := by rw [h, h']

theorem current_congr {p : Prog (Except ApiErr Int)} {f f' : Int → Tt} {g g' : ApiErr → Tt} (h : ∀ n, f n = f' n) (h' : ∀ e, g e = g' e) :
    Tt.current p f g = .current p f' g' := by rw [funext h, funext h']

theorem list_congr {p : Prog (Except ApiErr (List Row × Option Nat))} {f f' : List Row × Option Nat → Tt} {g g' : ApiErr → Tt}
    (h : ∀ n, f n = f' n) (h' : ∀ e, g e = g' e) : Tt.list p f g = .list p f' g' := by rw [funext h, funext h']

theorem openGroup_congr {f f' : Nat → Tt} {g g' : ApiErr → Tt} (h : ∀ n, f n = f' n) (h' : ∀ e, g e = g' e) :
    Tt.openGroup f g = .openGroup f' g' := by rw [funext h, funext h']

theorem watch_congr {n : Nat} {id : Int} {lo hi : Bytes} {start : Int} {f f' : Tt} {g g' : ApiErr → Tt} (h : f = f') (h' : ∀ e, g e = g' e) :
    Tt.watch n id lo hi start f g = .watch n id lo hi start f' g' := by rw [h, funext h']

theorem wait_congr {d : Int} {x x' y y' : Tt} (h : x = x') (h' : y = y') : Tt.wait d x y = .wait d x' y' := by rw [h, h']

theorem recvUpdateT_congr {n : Nat} {f f' : GroupUpdate → Tt} {t t' : Tt} (h : ∀ u, f u = f' u) (h' : t = t') : Tt.recvUpdate n f t = .recvUpdate n f' t' := by
  rw [funext h, h']

theorem cond_congrT {b : Bool} {x y x' y' : Tt} (h : x = x') (h' : y = y') : cond b x y = cond b x' y' := by rw [h, h']

/-- A loop with a state. -/
theorem loopL_eq {A : Type} (cnd : Store Ext → (V → Store Ext → Tt) → Tt) (body : Store Ext → (Store Ext → Tt) → (Store Ext → Tt) → Tt)
    (k : Store Ext → Tt) (st : A → Store Ext) (step : A → (A → Tt) → Tt)
    (h : ∀ a (K : Store Ext → Tt), (cnd (st a) fun c s => match c with | .bool b => bif b then body s K k else k s | _ => .stuck) = step a fun a' => K (st a')) :
    ∀ N a, loopL cnd body k N (st a) = Nat.rec (fun _ => .out) (fun _ r a => step a r) N a := by
  intro N
  induction N with
  | zero => intro a; rfl
  | succ n ih =>
    intro a
    refine (h a fun s => loopL cnd body k n s).trans ?_
    exact congrArg (step a) (funext ih)

theorem rangeT_eq {α : Type} (enc : α → V) (st : Store Ext) (F : Nat → V → Store Ext → (Store Ext → Tt) → (Store Ext → Tt) → Tt) (k : Store Ext → Tt)
    (G : α → Tt → Tt) (h : ∀ i x kc kb, F i (enc x) st kc kb = G x (kc st)) :
    ∀ l i, rangeStd F k (l.map enc) i st = foldT G (k st) l := by
  intro l
  induction l with
  | nil => intro i; rfl
  | cons x l ih =>
    intro i
    refine (h i x _ _).trans ?_
    exact congrArg (G x) (ih (i + 1))

/-- The value of `run`. -/
def runV : V :=
  match Ttl.f_ttl.body with
  | .cons (.define _ (.cons (.func ps rs b) _)) _ => .clos ps rs b [[(n!"ctx", 1), (n!"s", 0)]]
  | _ => .nil

/-- What the variables are in the loop over the rows. -/
structure RowsAt where
  left : List Row
  cur : V := .nil
  key : Bytes := []
  rev : Int := 0
  lease : Int := 0

/-- The variables. -/
def rowsSt (start : Int) (a : RowsAt) : Store Ext :=
  { vars := [ttlV .backend, ttlV .ctx, runV, .int start, .nil, .ptr (.obj 0) [], .bytes a.key, .int a.rev, .int a.lease]
    objs := [rowsV (a.left.map ttlRowV) a.cur]
    defers := [.meth (ttlV .wg) n!"Done" []] }

/-- An iteration of the loop over the rows. -/
def rowsStepT (N : Nat) (K : Tt) (a : RowsAt) (r : RowsAt → Tt) : Tt :=
  match a.left with
  | [] => K
  | w :: l => .spawn (timerT N w.name w.id (w.lease * 1000000000)) (r { left := l, cur := ttlRowV w, key := w.name, rev := w.id, lease := w.lease })

/-- The variables in the loop over the updates. -/
def recvSt (start : Int) (err cur : V) (key : Bytes) (rev lease : Int) (g : Nat) : Store Ext :=
  { vars := [ttlV .backend, ttlV .ctx, runV, .int start, err, .ptr (.obj 0) [], .bytes key, .int rev, .int lease, ttlV (.group g)]
    objs := [rowsV [] cur]
    defers := [.meth (ttlV .wg) n!"Done" []] }

/-- One more variable. -/
def moreV (s : Store Ext) (v : V) : Store Ext := { s with vars := s.vars ++ [v] }

theorem recvT_rec (N g : Nat) : ∀ n, (Nat.rec (fun _ => .out) (fun _ r a => .recvUpdate g (updT N (r a)) (.ret [])) n : Unit → Tt) () = recvT N g n := by
  intro n
  induction n with
  | zero => rfl
  | succ n ih => exact congrArg (fun x => Tt.recvUpdate g (updT N x) (.ret [])) ih

theorem rowsT_rec (N : Nat) (K : Tt) : ∀ n a, (Nat.rec (fun _ => .out) (fun _ r a => rowsStepT N K a r) n : RowsAt → Tt) a = rowsT N K n a.left := by
  intro n
  induction n with
  | zero => intro a; rfl
  | succ n ih =>
    intro a
    obtain ⟨left, cur, key, rev, lease⟩ := a
    cases left with
    | nil => rfl
    | cons w l => exact congrArg (Tt.spawn _) (ih _)

theorem scanAll_ttlRowV (rows : List Row × Option Nat) : scanAll ttlRowV rows = (scanAll id rows).map ttlRowV := by
  obtain ⟨l, n⟩ := rows
  cases n <;> simp [scanAll]

theorem ttl_tree (N : Nat) : ttlGo N = .spawn (ttlLoopT N) (.ret []) := by
  generalize hct : ctlL = ct
  have hl : ct.loop = loopL := by rw [← hct]; rfl
  generalize hrt : retryT = rt
  unfold ttlGo
  rw [hct, hrt]
  go_nf
  refine spawn_congrL ?_ ?_
  · go_env
    go_nf
    refine current_congr (fun start => ?_) (fun e => ?_)
    · go_env
      go_nf
      refine list_congr (fun rows => ?_) (fun e => ?_)
      · go_env
        go_nf
        unfold listedT
        rw [scanAll_ttlRowV]
        generalize scanAll id rows = ws
        go_name F G k
        rw [hl]
        refine Eq.trans (b := loopL F G k N (rowsSt start { left := ws })) (by kernel_rfl) ?_
        refine (loopL_eq F G k (rowsSt start) (rowsStepT N (followT N start)) ?_ N _).trans (rowsT_rec N (followT N start) N _)
        intro a K
        obtain ⟨left, cur, key, rev, lease⟩ := a
        cases left with
        | nil =>
          subst hF hG hk
          go_env
          go_nf
          refine openGroup_congr (fun g => ?_) (fun e => ?_)
          · go_env
            go_nf
            refine watch_congr ?_ (fun er => ?_)
            · go_env
              go_nf
              go_name F' G' k'
              rw [hl]
              refine Eq.trans (b := loopL F' G' k' N (recvSt start .nil cur key rev lease g)) (by kernel_rfl) ?_
              refine (loopL_eq F' G' k' (fun _ : Unit => recvSt start .nil cur key rev lease g) (fun a r => .recvUpdate g (updT N (r a)) (.ret [])) ?_ N ()).trans (recvT_rec N g N)
              intro a K
              subst hF' hG' hk'
              go_env
              go_nf
              refine recvUpdateT_congr (fun u => ?_) ?_
              · obtain ⟨urev, us⟩ := u
                unfold updT
                dsimp only
                unfold ttlUpdatesV
                go_env
                go_nf
                go_name F2 k2
                have hr : ct.range = rangeStd := by rw [← hct]; rfl
                rw [hr]
                have e2 : k2 (moreV (recvSt start .nil cur key rev lease g) (ttlUpdatesV ⟨urev, us⟩)) = K (recvSt start .nil cur key rev lease g) := by
                  subst hk2
                  kernel_rfl
                refine Eq.trans (b := rangeStd F2 k2 (us.map ttlUpdateOfV) 0 (moreV (recvSt start .nil cur key rev lease g) (ttlUpdatesV ⟨urev, us⟩))) (by kernel_rfl) ?_
                refine (rangeT_eq ttlUpdateOfV _ F2 k2 (fun p K => foldT (eventT N) K p.2) (fun i p kc kb => ?_) us 0).trans (by rw [e2])
                obtain ⟨wid, evs⟩ := p
                subst hF2
                clear hk2 e2
                generalize ttlUpdatesV ⟨urev, us⟩ = uv
                go_env
                go_nf
                go_name F3 k3
                rw [hr]
                have e3 : k3 (moreV (moreV (recvSt start .nil cur key rev lease g) uv) (ttlUpdateOfV (wid, evs))) = kc (moreV (recvSt start .nil cur key rev lease g) uv) := by
                  subst hk3
                  kernel_rfl
                refine Eq.trans (b := rangeStd F3 k3 (evs.map encEvent) 0 (moreV (moreV (recvSt start .nil cur key rev lease g) uv) (ttlUpdateOfV (wid, evs)))) (by kernel_rfl) ?_
                refine (rangeT_eq encEvent _ F3 k3 (eventT N) (fun i e kc kb => ?_) evs 0).trans (by rw [e3])
                subst hF3
                clear hk3 e3
                generalize ttlUpdateOfV (wid, evs) = pv
                generalize hv : encEvent e = ev
                unfold encEvent at hv
                subst hv
                unfold eventT
                go_env
                go_nf
                refine cond_congrT ?_ ?_
                · go_env
                  go_nf
                  refine congrArg (Tt.rand 1000) (funext fun j => ?_)
                  go_env
                  go_nf
                  refine spawn_congrL ?_ ?_
                  · go_env
                    go_nf
                    refine wait_congr ?_ ?_
                    · go_env
                      go_nf
                      rfl
                    · go_env
                      go_nf
                      subst hrt
                      refine retryT_eq _ _ _ _ e.kv.key e.kv.modRev (fun K => ?_) ?_ (fun e => ?_) N
                      · go_env
                        go_nf
                        refine delete_congr (fun r d => ?_) (fun e => ?_)
                        · cases d
                          · go_env
                            go_nf
                            rfl
                          · go_env
                            go_nf
                            rfl
                        · go_env
                          go_nf
                          rfl
                      · go_env
                        go_nf
                        rfl
                      · go_env
                        go_nf
                        rfl
                  · go_env
                    go_nf
                    exact congrArg kc (by kernel_rfl)
                · go_env
                  go_nf
                  exact congrArg kc (by kernel_rfl)
              · go_env
                go_nf
                rfl
            · go_env
              go_nf
              go_name F' G' k'
              rw [hl]
              refine Eq.trans (b := loopL F' G' k' N (recvSt start (.ext (.err er)) cur key rev lease g)) (by kernel_rfl) ?_
              refine (loopL_eq F' G' k' (fun _ : Unit => recvSt start (.ext (.err er)) cur key rev lease g) (fun a r => .recvUpdate g (updT N (r a)) (.ret [])) ?_ N ()).trans (recvT_rec N g N)
              intro a K
              subst hF' hG' hk'
              go_env
              go_nf
              refine recvUpdateT_congr (fun u => ?_) ?_
              · obtain ⟨urev, us⟩ := u
                unfold updT
                dsimp only
                unfold ttlUpdatesV
                go_env
                go_nf
                go_name F2 k2
                have hr : ct.range = rangeStd := by rw [← hct]; rfl
                rw [hr]
                have e2 : k2 (moreV (recvSt start (.ext (.err er)) cur key rev lease g) (ttlUpdatesV ⟨urev, us⟩)) = K (recvSt start (.ext (.err er)) cur key rev lease g) := by
                  subst hk2
                  kernel_rfl
                refine Eq.trans (b := rangeStd F2 k2 (us.map ttlUpdateOfV) 0 (moreV (recvSt start (.ext (.err er)) cur key rev lease g) (ttlUpdatesV ⟨urev, us⟩))) (by kernel_rfl) ?_
                refine (rangeT_eq ttlUpdateOfV _ F2 k2 (fun p K => foldT (eventT N) K p.2) (fun i p kc kb => ?_) us 0).trans (by rw [e2])
                obtain ⟨wid, evs⟩ := p
                subst hF2
                clear hk2 e2
                generalize ttlUpdatesV ⟨urev, us⟩ = uv
                go_env
                go_nf
                go_name F3 k3
                rw [hr]
                have e3 : k3 (moreV (moreV (recvSt start (.ext (.err er)) cur key rev lease g) uv) (ttlUpdateOfV (wid, evs))) = kc (moreV (recvSt start (.ext (.err er)) cur key rev lease g) uv) := by
                  subst hk3
                  kernel_rfl
                refine Eq.trans (b := rangeStd F3 k3 (evs.map encEvent) 0 (moreV (moreV (recvSt start (.ext (.err er)) cur key rev lease g) uv) (ttlUpdateOfV (wid, evs)))) (by kernel_rfl) ?_
                refine (rangeT_eq encEvent _ F3 k3 (eventT N) (fun i e kc kb => ?_) evs 0).trans (by rw [e3])
                subst hF3
                clear hk3 e3
                generalize ttlUpdateOfV (wid, evs) = pv
                generalize hv : encEvent e = ev
                unfold encEvent at hv
                subst hv
                unfold eventT
                go_env
                go_nf
                refine cond_congrT ?_ ?_
                · go_env
                  go_nf
                  refine congrArg (Tt.rand 1000) (funext fun j => ?_)
                  go_env
                  go_nf
                  refine spawn_congrL ?_ ?_
                  · go_env
                    go_nf
                    refine wait_congr ?_ ?_
                    · go_env
                      go_nf
                      rfl
                    · go_env
                      go_nf
                      subst hrt
                      refine retryT_eq _ _ _ _ e.kv.key e.kv.modRev (fun K => ?_) ?_ (fun e => ?_) N
                      · go_env
                        go_nf
                        refine delete_congr (fun r d => ?_) (fun e => ?_)
                        · cases d
                          · go_env
                            go_nf
                            rfl
                          · go_env
                            go_nf
                            rfl
                        · go_env
                          go_nf
                          rfl
                      · go_env
                        go_nf
                        rfl
                      · go_env
                        go_nf
                        rfl
                  · go_env
                    go_nf
                    exact congrArg kc (by kernel_rfl)
                · go_env
                  go_nf
                  exact congrArg kc (by kernel_rfl)
              · go_env
                go_nf
                rfl
          · go_env
            go_nf
            rfl
        | cons w l =>
          subst hF hG hk
          unfold ttlRowV
          go_env
          go_nf
          refine spawn_congrL ?_ ?_
          · go_env
            go_nf
            refine wait_congr ?_ ?_
            · go_env
              go_nf
              rfl
            · go_env
              go_nf
              clear K
              subst hrt
              refine retryT_eq _ _ _ _ w.name w.id (fun K => ?_) ?_ (fun e => ?_) N
              · go_env
                go_nf
                refine delete_congr (fun r d => ?_) (fun e => ?_)
                · cases d
                  · go_env
                    go_nf
                    rfl
                  · go_env
                    go_nf
                    rfl
                · go_env
                  go_nf
                  rfl
              · go_env
                go_nf
                rfl
              · go_env
                go_nf
                rfl
          · go_env
            go_nf
            refine congrArg K ?_
            kernel_rfl
      · go_env
        go_nf
        rfl
    · go_env
      go_nf
      rfl
  · go_env
    go_nf
    rfl

end Verif.Go
