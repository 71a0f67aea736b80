import Verif.Model.GoErrors
/-!
# What the text of `Compact` finds around it

`(*Driver).Compact` (`/repo/pkg/backend/sqlite/driver.go:585-617`) as a tree of what it asks, like Model/GoErrors.

Simplifications: `GetCompactRevision` (its own text is in C116) is one look at a row that is there or cannot be read; `tryCompact`, one transaction, is one
question to the database, of which only the answer is of interest here.
-/

namespace Verif.Go

open Verif.GoText

/-- Calls of `GetCompactRevision` and of `tryCompact`, which is counted with its two revisions before it is asked. -/
def compactCalls : Calls Er := fun ty m args K =>
  if ty == n!"Driver" && m == n!"GetCompactRevision" then
    .scan (fun a b => K [.int a, .int b, .nil]) fun e => K [.int 0, .int 0, erV (.err e)]
  else if ty == n!"Driver" && m == n!"tryCompact" then
    match args with
    | [_, _, .int a, .int b] => .count n!"tryCompact" (decimal a) (decimal b) (.ask (K [.nil]) fun e => K [erV (.err e)])
    | _ => .stuck
  else .stuck

/-- `d.Compact(ctx, revision)`. -/
def compactGo (retry : GoErr → Bool) (revision : Int) : Er :=
  Driver.f_Compact.run (erHost ctlEr retry compactCalls) [erV .driver, .tok, .int revision] (done .ret)

end Verif.Go
