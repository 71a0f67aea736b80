import Verif.Lemmas.GoLimited
/-!
# The functions of `pkg/limited`: their texts and the model
-/

namespace Verif.Go

open Verif.GoText.Limited

/-- Answer of a function with results `(T, error)`. -/
def answer {α R : Type} (enc : α → V) (K : List V → R) : Except ApiErr α → R
  | .ok a => K [enc a, .nil]
  | .error e => K [.nil, .ext (.err e)]

/-- Go on with what a program of the model answers. -/
def hand {α Y : Type} (p : Prog (Except ApiErr α)) (ok : α → Prog Y) (er : ApiErr → Prog Y) : Prog Y :=
  p.bind fun
    | .ok a => ok a
    | .error e => er e

/-- The backend of the model. -/
def progBackend {Y : Type} (v1 : Bool) : BackendOps (Prog Y) :=
  { create := fun k v l ok er => hand (Backend.create k v l) (fun r => ok r.1 r.2) er
    update := fun k v p l ok er => hand (Backend.update k v p l) (fun r => ok r.1 r.2) er
    delete := fun k p ok er => hand (Backend.delete k p) (fun r => ok r.1 r.2) er
    list := fun k e l r ok er => hand (Backend.list v1 k e l r) (fun r => ok r.1 r.2) er
    count := fun k e r ok er => hand (Backend.count v1 k e r) (fun r => ok r.1 r.2) er }

theorem bind_bind {α β γ : Type} (p : Prog α) (f : α → Prog β) (g : β → Prog γ) : (p.bind f).bind g = p.bind fun a => (f a).bind g := by
  induction p with
  | ret a => rfl
  | stmt eff k ih => simp only [Prog.bind]; congr 1; funext o db; exact ih o db

theorem hand_andThen {α β Y : Type} (p : Prog (Except ApiErr α)) (f : α → Prog (Except ApiErr β)) (ok : β → Prog Y) (er : ApiErr → Prog Y) :
    hand (p.andThen f) ok er = hand p (fun a => hand (f a) ok er) er := by
  unfold hand Prog.andThen
  rw [bind_bind]
  congr 1; funext r
  cases r <;> rfl

theorem hand_congr {α Y : Type} {p : Prog (Except ApiErr α)} {f g : α → Prog Y} {er er' : ApiErr → Prog Y} (h : ∀ a, f a = g a)
    (h' : ∀ e, er e = er' e) : hand p f er = hand p g er' := by
  rw [funext h, funext h']

theorem hand_step {α β Y : Type} {p : Prog (Except ApiErr α)} {f : α → Prog (Except ApiErr β)} {ok : β → Prog Y} {er er' : ApiErr → Prog Y}
    {g : α → Prog Y} (h : ∀ a, g a = hand (f a) ok er) (h' : ∀ e, er' e = er e) : hand p g er' = hand (p.andThen f) ok er := by
  rw [hand_andThen, funext h, funext h']

theorem bind_answer {α Y : Type} (p : Prog (Except ApiErr α)) (enc : α → V) (K : List V → Prog Y) :
    p.bind (answer enc K) = hand p (fun a => K [enc a, .nil]) (fun e => K [.nil, .ext (.err e)]) := by
  unfold hand answer; congr 1

theorem cond_t {α : Type} {b : Bool} {x y z : α} (h : b = true) (h' : x = z) : cond b x y = z := by rw [h]; exact h'

theorem cond_f {α : Type} {b : Bool} {x y z : α} (h : b = false) (h' : y = z) : cond b x y = z := by rw [h]; exact h'

theorem rhs_t {α Y : Type} {c : Prop} [Decidable c] {a b : Prog (Except ApiErr α)} {ok : α → Prog Y} {er : ApiErr → Prog Y} {x : Prog Y} (h : c)
    (h' : x = hand a ok er) : x = hand (if c then a else b) ok er := by
  rw [if_pos h]; exact h'

theorem rhs_f {α Y : Type} {c : Prop} [Decidable c] {a b : Prog (Except ApiErr α)} {ok : α → Prog Y} {er : ApiErr → Prog Y} {x : Prog Y} (h : ¬c)
    (h' : x = hand b ok er) : x = hand (if c then a else b) ok er := by
  rw [if_neg h]; exact h'

theorem rb_t {α Y : Type} {c : Prop} [Decidable c] {a b : Prog α} {g : α → Prog Y} {x : Prog Y} (h : c) (h' : x = a.bind g) :
    x = (if c then a else b).bind g := by
  rw [if_pos h]; exact h'

theorem rb_f {α Y : Type} {c : Prop} [Decidable c] {a b : Prog α} {g : α → Prog Y} {x : Prog Y} (h : ¬c) (h' : x = b.bind g) :
    x = (if c then a else b).bind g := by
  rw [if_neg h]; exact h'

/-- `toKVs` gives the same data. -/
def KVsOk {Y : Type} (T : Calls (Prog Y)) : Prop := ∀ (kvs : List KV) (k : List V → Prog Y), T 0 n!"toKVs" (kvs.map encKV) k = k [.list (kvs.map encKV)]

section
variable {Y : Type} (ct : Control Ext (Prog Y)) (v1 : Bool) (T : Calls (Prog Y)) (n : Nat) (K : List V → Prog Y)

theorem create_link (p : PutReq) : f_create.run (limitedHost ct (progBackend v1) (over [n!"toKVs"] T (limitedCalls ct (progBackend v1) (n + 1)))) [limitedV, .tok, encPut p] (done K) =
    (Limited.create p).bind (answer encTxnResp K) := by
  refine Eq.trans ?_ (bind_answer _ _ _).symm
  generalize hB : progBackend v1 = B
  go_nf
  subst hB
  unfold Limited.create
  cases p.ignoreLease; case true => kernel_rfl
  cases p.ignoreValue; case true => kernel_rfl
  cases p.prevKv; case true => kernel_rfl
  refine hand_step ?_ (fun _ => rfl)
  rintro ⟨rev, c⟩
  cases c <;> kernel_rfl

theorem get_link (r : RangeReq) : f_get.run (limitedHost ct (progBackend v1) (over [n!"toKVs"] T (limitedCalls ct (progBackend v1) (n + 1)))) [limitedV, .tok, encRange r] (done K) =
    (Limited.get v1 r).bind (answer encRangeResp K) := by
  refine Eq.trans ?_ (bind_answer _ _ _).symm
  generalize hB : progBackend v1 = B
  go_nf
  subst hB
  unfold Limited.get
  refine hand_step ?_ (fun _ => rfl)
  rintro ⟨rev, kvs⟩
  go_beta
  go_map
  kernel_rfl

theorem delete_link (hT : KVsOk T) (k : Bytes) (r : Int) : f_delete.run (limitedHost ct (progBackend v1) (over [n!"toKVs"] T (limitedCalls ct (progBackend v1) (n + 1)))) [limitedV, .tok, .bytes k, .int r] (done K) =
    (Limited.delete v1 k r).bind (answer encTxnResp K) := by
  refine Eq.trans ?_ (bind_answer _ _ _).symm
  generalize hB : progBackend v1 = B
  go_nf
  subst hB
  refine hand_step ?_ (fun _ => rfl)
  rintro ⟨rev, c⟩
  cases c
  case true => kernel_rfl
  refine hand_step ?_ (fun _ => rfl)
  rintro ⟨rev', kvs⟩
  refine Eq.trans (hT kvs _) ?_
  go_nf
  go_map
  kernel_rfl

theorem update_link (hT : KVsOk T) (rev : Int) (k v : Bytes) (l : Int) :
    f_update.run (limitedHost ct (progBackend v1) (over [n!"toKVs"] T (limitedCalls ct (progBackend v1) (n + 1)))) [limitedV, .tok, .int rev, .bytes k, .bytes v, .int l] (done K) =
    (Limited.update v1 rev k v l).bind (answer encTxnResp K) := by
  refine Eq.trans ?_ (bind_answer _ _ _).symm
  generalize hB : progBackend v1 = B
  unfold Limited.update
  by_cases h : rev = 0
  · rw [if_pos h]
    go_nf
    subst hB
    refine cond_t (by simp [h]) ?_
    refine hand_step ?_ (fun _ => rfl)
    rintro ⟨rev, c⟩
    cases c
    case true => kernel_rfl
    refine hand_step ?_ (fun _ => rfl)
    rintro ⟨rev', kvs⟩
    refine Eq.trans (hT kvs _) ?_
    go_nf
    go_map
    kernel_rfl
  · rw [if_neg h]
    go_nf
    subst hB
    refine cond_f (by simp [h]) ?_
    refine hand_step ?_ (fun _ => rfl)
    rintro ⟨rev, c⟩
    cases c
    case true => kernel_rfl
    refine hand_step ?_ (fun _ => rfl)
    rintro ⟨rev', kvs⟩
    refine Eq.trans (hT kvs _) ?_
    go_nf
    go_map
    kernel_rfl

theorem list_link (r : RangeReq) (h : r.rangeEnd ≠ []) : f_list.run (limitedHost ct (progBackend v1) (over [n!"toKVs"] T (limitedCalls ct (progBackend v1) (n + 1)))) [limitedV, .tok, encRange r] (done K) =
    (Limited.list v1 r).bind (answer encRangeResp K) := by
  refine Eq.trans ?_ (bind_answer _ _ _).symm
  generalize hB : progBackend v1 = B
  unfold Limited.list
  obtain ⟨key, re, lim, rv, co, ko, so, st, se, m1, m2, m3, m4⟩ := r
  obtain ⟨x, xs, rfl⟩ := List.exists_cons_of_ne_nil h
  cases co
  case true =>
    go_nf
    subst hB
    refine hand_step ?_ (fun _ => rfl)
    rintro ⟨rev, c⟩
    kernel_rfl
  simp only [Bool.false_eq_true, if_false]
  by_cases hl : lim > 0
  · rw [if_pos hl]
    by_cases hr : rv = 0
    · simp only [if_pos hr]
      go_nf
      subst hB
      refine cond_t (by simpa using hl) ?_
      refine hand_step ?_ (fun _ => rfl)
      rintro ⟨rev, kvs⟩
      go_beta
      refine cond_t (by simp; omega) ?_
      by_cases hk : (kvs.length : Int) > lim
      · refine cond_t (by simpa using hk) ?_
        refine cond_t (by simp; omega) ?_
        refine rhs_t ⟨by omega, hk⟩ ?_
        refine cond_t (by simpa using hr) ?_
        refine hand_step ?_ (fun _ => rfl)
        rintro ⟨rev', c⟩
        go_beta
        go_map
        rw [← List.map_take, ← List.map_drop]
        kernel_rfl
      · refine cond_f (by simpa using hk) ?_
        go_map
        refine rhs_f (fun x => hk x.2) ?_
        rw [List.length_map]
        kernel_rfl
    · simp only [if_neg hr]
      go_nf
      subst hB
      refine cond_t (by simpa using hl) ?_
      refine hand_step ?_ (fun _ => rfl)
      rintro ⟨rev, kvs⟩
      go_beta
      refine cond_t (by simp; omega) ?_
      by_cases hk : (kvs.length : Int) > lim
      · refine cond_t (by simpa using hk) ?_
        refine cond_t (by simp; omega) ?_
        refine rhs_t ⟨by omega, hk⟩ ?_
        refine cond_f (by simpa using hr) ?_
        refine hand_step ?_ (fun _ => rfl)
        rintro ⟨rev', c⟩
        go_beta
        go_map
        rw [← List.map_take, ← List.map_drop]
        kernel_rfl
      · refine cond_f (by simpa using hk) ?_
        go_map
        refine rhs_f (fun x => hk x.2) ?_
        rw [List.length_map]
        kernel_rfl
  · rw [if_neg hl]
    go_nf
    subst hB
    refine cond_f (by simpa using hl) ?_
    refine hand_step ?_ (fun _ => rfl)
    rintro ⟨rev, kvs⟩
    go_beta
    refine cond_f (by simpa using hl) ?_
    go_map
    refine rhs_f (fun x => hl x.1) ?_
    rw [List.length_map]
    kernel_rfl

end

/-- What the functions do that `Txn` and `Range` call. -/
structure CallsOk {Y : Type} (v1 : Bool) (T : Calls (Prog Y)) : Prop where
  isCreate : ∀ t k, T 0 n!"isCreate" [encTxn t] k = k [encOpt encPut (isCreate t)]
  isDelete : ∀ t k, T 0 n!"isDelete" [encTxn t] k =
    k (match isDelete t with | some (r, k) => [.int r, .bytes k, .bool true] | none => [.int 0, .bytes [], .bool false])
  isUpdate : ∀ t k, T 0 n!"isUpdate" [encTxn t] k =
    k (match isUpdate t with
      | some (r, k, v, l) => [.int r, .bytes k, .bytes v, .int l, .bool true]
      | none => [.int 0, .bytes [], .bytes [], .int 0, .bool false])
  isCompact : ∀ t k, T 0 n!"isCompact" [encTxn t] k = k [.bool (isCompact t)]
  create : ∀ p k, T n!"LimitedServer" n!"create" [limitedV, .tok, encPut p] k = (Limited.create p).bind (answer encTxnResp k)
  delete : ∀ key r k, T n!"LimitedServer" n!"delete" [limitedV, .tok, .bytes key, .int r] k =
    (Limited.delete v1 key r).bind (answer encTxnResp k)
  update : ∀ r key v l k, T n!"LimitedServer" n!"update" [limitedV, .tok, .int r, .bytes key, .bytes v, .int l] k =
    (Limited.update v1 r key v l).bind (answer encTxnResp k)
  compact : ∀ k, T n!"LimitedServer" n!"compact" [limitedV, .tok] k = k [encTxnResp Limited.compact, .nil]
  get : ∀ r k, T n!"LimitedServer" n!"get" [limitedV, .tok, encRange r] k = (Limited.get v1 r).bind (answer encRangeResp k)
  list : ∀ r k, r.rangeEnd ≠ [] → T n!"LimitedServer" n!"list" [limitedV, .tok, encRange r] k = (Limited.list v1 r).bind (answer encRangeResp k)

theorem bind_answer_congr {α Y : Type} {p : Prog (Except ApiErr α)} {enc : α → V} {k k' : List V → Prog Y} (h : ∀ a, k [enc a, .nil] = k' [enc a, .nil])
    (h' : ∀ e, k [.nil, .ext (.err e)] = k' [.nil, .ext (.err e)]) : p.bind (answer enc k) = p.bind (answer enc k') := by
  rw [bind_answer, bind_answer]
  exact hand_congr h h'

section
variable {Y : Type} (ct : Control Ext (Prog Y)) (v1 : Bool) (B : BackendOps (Prog Y)) (T L : Calls (Prog Y)) (K : List V → Prog Y)

/-- The calls at which evaluation stops. -/
def txnStops : List Nm :=
  [n!"isCreate", n!"isDelete", n!"isUpdate", n!"isCompact", n!"create", n!"delete", n!"update", n!"compact", n!"get", n!"list"]

theorem Txn_link (hT : CallsOk v1 T) (t : TxnReq) :
    f_Txn.run (limitedHost ct B (over txnStops T L)) [limitedV, .tok, encTxn t] (done K) = (Limited.txn v1 t).bind (answer encTxnResp K) := by
  unfold Limited.txn
  go_nf
  refine Eq.trans (hT.isCreate t _) ?_
  cases isCreate t with
  | some p =>
    go_nf
    refine Eq.trans (hT.create p _) ?_
    exact bind_answer_congr (fun _ => by kernel_rfl) (fun _ => by kernel_rfl)
  | none =>
    go_nf
    refine Eq.trans (hT.isDelete t _) ?_
    rcases isDelete t with _ | ⟨r, k⟩
    · go_nf
      refine Eq.trans (hT.isUpdate t _) ?_
      rcases isUpdate t with _ | ⟨r, k, v, l⟩
      · go_nf
        refine Eq.trans (hT.isCompact t _) ?_
        cases isCompact t
        · kernel_rfl
        · go_nf
          refine Eq.trans (hT.compact _) ?_
          kernel_rfl
      · go_nf
        refine Eq.trans (hT.update r k v l _) ?_
        exact bind_answer_congr (fun _ => by kernel_rfl) (fun _ => by kernel_rfl)
    · go_nf
      refine Eq.trans (hT.delete k r _) ?_
      exact bind_answer_congr (fun _ => by kernel_rfl) (fun _ => by kernel_rfl)

theorem Range_link (hT : CallsOk v1 T) (r : RangeReq) :
    f_Range.run (limitedHost ct B (over txnStops T L)) [limitedV, .tok, encRange r] (done K) = (Limited.range v1 r).bind (answer encRangeResp K) := by
  obtain ⟨key, re, lim, rv, co, ko, so, st, se, m1, m2, m3, m4⟩ := r
  unfold Limited.range
  cases re with
  | nil =>
    go_nf
    refine Eq.trans (hT.get _ _) ?_
    exact bind_answer_congr (fun _ => by kernel_rfl) (fun _ => by kernel_rfl)
  | cons x xs =>
    go_nf
    refine Eq.trans (hT.list _ _ ?_) ?_
    · simp
    exact bind_answer_congr (fun _ => by kernel_rfl) (fun _ => by kernel_rfl)

theorem Bridge_Txn_link (hT : ∀ t k, T n!"LimitedServer" n!"Txn" [limitedV, .tok, encTxn t] k = (Limited.txn v1 t).bind (answer encTxnResp k))
    (t : TxnReq) : f_KVServerBridge_Txn.run (limitedHost ct B (over [n!"Txn"] T L)) [bridgeV, .tok, encTxn t] (done K) =
      (Limited.txn v1 t).bind (answer encTxnResp K) := by
  go_nf
  refine Eq.trans (hT _ _) ?_
  exact bind_answer_congr (fun _ => by kernel_rfl) (fun _ => by kernel_rfl)

theorem Bridge_Range_link (hT : ∀ r k, T n!"LimitedServer" n!"Range" [limitedV, .tok, encRange r] k = (Limited.range v1 r).bind (answer encRangeResp k))
    (hT' : KVsOk T) (n : Nat) (r : RangeReq) :
    f_KVServerBridge_Range.run (limitedHost ct B (over [n!"Range", n!"toKVs"] T (limitedCalls ct B (n + 1)))) [bridgeV, .tok, encRange r] (done K) =
      (Bridge.range v1 r).bind (answer encRangeResp K) := by
  unfold Bridge.range
  go_nf
  by_cases h1 : r.keysOnly = true
  · refine cond_t (by simp [h1]) (rb_t h1 ?_)
    kernel_rfl
  refine cond_f (by simpa using h1) (rb_f h1 ?_)
  by_cases h2 : r.maxCreateRevision ≠ 0
  · refine cond_t (by simp [h2]) (rb_t h2 ?_)
    kernel_rfl
  refine cond_f (by simpa using h2) (rb_f h2 ?_)
  by_cases h3 : r.sortOrder ≠ 0
  · refine cond_t (by simp [h3]) (rb_t h3 ?_)
    kernel_rfl
  refine cond_f (by simpa using h3) (rb_f h3 ?_)
  by_cases h4 : r.sortTarget ≠ 0
  · refine cond_t (by simp [h4]) (rb_t h4 ?_)
    kernel_rfl
  refine cond_f (by simpa using h4) (rb_f h4 ?_)
  by_cases h5 : r.serializable = true
  · refine cond_t (by simp [h5]) (rb_t h5 ?_)
    kernel_rfl
  refine cond_f (by simpa using h5) (rb_f h5 ?_)
  refine cond_f (by simpa using h1) ?_
  by_cases h6 : r.minModRevision ≠ 0
  · refine cond_t (by simp [h6]) (rb_t h6 ?_)
    kernel_rfl
  refine cond_f (by simpa using h6) (rb_f h6 ?_)
  by_cases h7 : r.minCreateRevision ≠ 0
  · refine cond_t (by simp [h7]) (rb_t h7 ?_)
    kernel_rfl
  refine cond_f (by simpa using h7) (rb_f h7 ?_)
  refine cond_f (by simpa using h2) ?_
  by_cases h8 : r.maxModRevision ≠ 0
  · refine cond_t (by simp [h8]) (rb_t h8 ?_)
    kernel_rfl
  refine cond_f (by simpa using h8) (rb_f h8 ?_)
  refine Eq.trans (hT r _) ?_
  refine bind_answer_congr (fun a => ?_) (fun _ => by kernel_rfl)
  go_nf
  refine Eq.trans (hT' a.kvs _) ?_
  go_nf
  go_map
  kernel_rfl

end

/-! ### The texts together -/

section
variable {Y : Type} (stuck : Prog Y) (v1 : Bool) (K : List V → Prog Y)

/-- The texts of `pkg/limited` on the backend of the model, calls nested `n` deep. -/
abbrev limitedTexts (n : Nat) : Calls (Prog Y) := limitedCalls (Control.std stuck) (progBackend v1) n

theorem texts_kvsOk (n : Nat) : KVsOk (limitedTexts stuck v1 (n + 2)) := by
  intro kvs k
  refine Eq.trans ?_ (toKVs_run stuck (progBackend v1) k n kvs)
  kernel_rfl

theorem texts_ok (n : Nat) : CallsOk v1 (limitedTexts stuck v1 (n + 3)) where
  isCreate t k := Eq.trans (by kernel_rfl) (isCreate_run (Control.std stuck) (progBackend v1) (limitedTexts stuck v1 (n + 2)) k t)
  isDelete t k := Eq.trans (by kernel_rfl) (isDelete_run (Control.std stuck) (progBackend v1) (limitedTexts stuck v1 (n + 2)) k t)
  isUpdate t k := Eq.trans (by kernel_rfl) (isUpdate_run (Control.std stuck) (progBackend v1) (limitedTexts stuck v1 (n + 2)) k t)
  isCompact t k := Eq.trans (by kernel_rfl) (isCompact_run (Control.std stuck) (progBackend v1) (limitedTexts stuck v1 (n + 2)) k t)
  compact k := Eq.trans (by kernel_rfl) (compact_run (Control.std stuck) (progBackend v1) (limitedTexts stuck v1 (n + 2)) k)
  create p k := by
    refine Eq.trans ?_ (create_link (Control.std stuck) v1 (limitedTexts stuck v1 (n + 2)) (n + 1) k p)
    rw [over_self]
    kernel_rfl
  delete key r k := by
    refine Eq.trans ?_ (delete_link (Control.std stuck) v1 (limitedTexts stuck v1 (n + 2)) (n + 1) k (texts_kvsOk stuck v1 n) key r)
    rw [over_self]
    kernel_rfl
  update r key v l k := by
    refine Eq.trans ?_ (update_link (Control.std stuck) v1 (limitedTexts stuck v1 (n + 2)) (n + 1) k (texts_kvsOk stuck v1 n) r key v l)
    rw [over_self]
    kernel_rfl
  get r k := by
    refine Eq.trans ?_ (get_link (Control.std stuck) v1 (limitedTexts stuck v1 (n + 2)) (n + 1) k r)
    rw [over_self]
    kernel_rfl
  list r k h := by
    refine Eq.trans ?_ (list_link (Control.std stuck) v1 (limitedTexts stuck v1 (n + 2)) (n + 1) k r h)
    rw [over_self]
    kernel_rfl

/-- The text of `(*LimitedServer).Txn` with the texts it calls does what the model's `Limited.txn` does. -/
theorem texts_Txn (n : Nat) (t : TxnReq) :
    limitedTexts stuck v1 (n + 4) n!"LimitedServer" n!"Txn" [limitedV, .tok, encTxn t] K = (Limited.txn v1 t).bind (answer encTxnResp K) := by
  refine Eq.trans ?_ (Txn_link (Control.std stuck) v1 (progBackend v1) (limitedTexts stuck v1 (n + 3)) (limitedTexts stuck v1 (n + 3)) K
    (texts_ok stuck v1 n) t)
  rw [over_self]
  kernel_rfl

theorem texts_Range (n : Nat) (r : RangeReq) :
    limitedTexts stuck v1 (n + 4) n!"LimitedServer" n!"Range" [limitedV, .tok, encRange r] K = (Limited.range v1 r).bind (answer encRangeResp K) := by
  refine Eq.trans ?_ (Range_link (Control.std stuck) v1 (progBackend v1) (limitedTexts stuck v1 (n + 3)) (limitedTexts stuck v1 (n + 3)) K
    (texts_ok stuck v1 n) r)
  rw [over_self]
  kernel_rfl

/-- `(*KVServerBridge).Txn`. -/
theorem texts_Bridge_Txn (n : Nat) (t : TxnReq) :
    limitedTexts stuck v1 (n + 5) n!"KVServerBridge" n!"Txn" [bridgeV, .tok, encTxn t] K = (Limited.txn v1 t).bind (answer encTxnResp K) := by
  refine Eq.trans ?_ (Bridge_Txn_link (Control.std stuck) v1 (progBackend v1) (limitedTexts stuck v1 (n + 4)) (limitedTexts stuck v1 (n + 4)) K
    (fun t k => texts_Txn stuck v1 k n t) t)
  rw [over_self]
  kernel_rfl

/-- `(*KVServerBridge).Range`. -/
theorem texts_Bridge_Range (n : Nat) (r : RangeReq) :
    limitedTexts stuck v1 (n + 5) n!"KVServerBridge" n!"Range" [bridgeV, .tok, encRange r] K = (Bridge.range v1 r).bind (answer encRangeResp K) := by
  refine Eq.trans ?_ (Bridge_Range_link (Control.std stuck) v1 (progBackend v1) (limitedTexts stuck v1 (n + 4)) K
    (fun r k => texts_Range stuck v1 k n r) (texts_kvsOk stuck v1 (n + 2)) (n + 3) r)
  rw [over_self]
  kernel_rfl

end
end Verif.Go
