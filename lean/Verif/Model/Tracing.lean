import Verif.Model.Bytes
/-!
# Tracing: `/repo/cmd/tracing.go`, `/repo/cmd/root.go:93-121`

Spans that end go through the filters to the batch processor of the OpenTelemetry SDK, which exports them later. Of
the SDK is assumed: the batch processor queues at most 2048 spans and drops more, a goroutine exports what is
queued from time to time, `Shutdown` of the provider exports the rest, and an exporter on a closed file or connection exports nothing.
Meters, the file names and the contents of spans are not modelled.
-/

namespace Verif

/-- A span that has ended; times in nanoseconds. -/
structure Span where
  name : Bytes
  startTime : Int
  endTime : Int
deriving DecidableEq, Repr

/-- A chain of span processors (`tracing.go:32-79`). A regular expression is the set of the names it matches. -/
inductive SpanProc where
  /-- the batch processor of the SDK -/
  | batch
  /-- `NameFilter`; `none`: `AllowedPattern` is `nil` -/
  | name (allowed : Option (Bytes → Bool)) (next : SpanProc)
  /-- `DurationFilter` -/
  | duration (min : Int) (next : SpanProc)

/-- `OnEnd` (`tracing.go:47-52,69-75`): whether the span gets to the batch processor. -/
def SpanProc.onEnd : SpanProc → Span → Bool
  | .batch, _ => true
  | .name none next, s => next.onEnd s
  | .name (some f) next, s => if !f s.name then false else next.onEnd s
  | .duration min next, s => if decide (0 < min) && decide (s.endTime - s.startTime < min) then false else next.onEnd s

/-- The options (`root.go:93-121`): the pattern (empty: none), and the duration as it was parsed (`none`: it is no duration). -/
structure TraceOpts where
  pattern : Bytes
  /-- `--otel-span-min-duration-filter` is not empty; what `time.ParseDuration` says -/
  minDuration : Option (Option Int)

/-- The minimal duration (`root.go:108-115`): none means zero, and what cannot be parsed 10 ms. -/
def TraceOpts.min (o : TraceOpts) : Int :=
  match o.minDuration with
  | none => 0
  | some none => 10000000
  | some (some d) => d

/-- `newTraceProvider` (`tracing.go:242-273`); `compile` is `regexp.Compile`. `none`: the pattern is not valid, and tracing is
not set up at all. -/
def newTraceProvider (compile : Bytes → Option (Bytes → Bool)) (o : TraceOpts) : Option SpanProc :=
  let named : Option SpanProc :=
    if o.pattern ≠ [] then (compile o.pattern).map fun f => .name (some f) .batch else some .batch
  named.map fun p => if 0 < o.min then .duration o.min p else p

/-- The state of tracing. -/
structure TraceSys where
  proc : SpanProc
  queue : List Span
  exported : List Span
  /-- the file or connection is open -/
  opened : Bool
  /-- ghost: all spans that ended -/
  ended : List Span

/-- Tracing was set up (`tracing.go:83-210`). -/
def TraceSys.init (p : SpanProc) : TraceSys := { proc := p, queue := [], exported := [], opened := true, ended := [] }

/-- A span ends. -/
def TraceSys.endSpan (t : TraceSys) (s : Span) : TraceSys :=
  { t with
    ended := t.ended ++ [s],
    queue := if t.proc.onEnd s && decide (t.queue.length < 2048) then t.queue ++ [s] else t.queue }

/-- The goroutine of the batch processor exports what is queued. -/
def TraceSys.flush (t : TraceSys) : TraceSys :=
  { t with queue := [], exported := if t.opened then t.exported ++ t.queue else t.exported }

/-- The returned `shutdown` (`tracing.go:98-136`): the variable `traceProvider` it tests is never assigned (the
provider is in `tracerProvider`, `tracing.go:182-187`), so that the provider is not shut down; files and connections are closed. -/
def TraceSys.shutdown (t : TraceSys) : TraceSys := { t with opened := false }

/-- The steps. -/
inductive TraceStep : TraceSys → TraceSys → Prop where
  | endSpan (t : TraceSys) (s : Span) : TraceStep t (t.endSpan s)
  | flush (t : TraceSys) : TraceStep t t.flush
  | shutdown (t : TraceSys) : TraceStep t t.shutdown

/-- Any number of steps. -/
inductive TraceSteps : TraceSys → TraceSys → Prop where
  | refl (t : TraceSys) : TraceSteps t t
  | step {a b c : TraceSys} : TraceSteps a b → TraceStep b c → TraceSteps a c

end Verif
