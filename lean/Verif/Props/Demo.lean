import Verif.Lemmas.Exec
import Verif.Lemmas.Txn
/-!
# A small concrete history used to show that the hypotheses of the theorems are met
-/

namespace Verif.Demo

/-- Key `/a`. -/
def ka : Bytes := [0x2f, 0x61]
/-- Key `/b`. -/
def kb : Bytes := [0x2f, 0x62]
/-- Key `/c`. -/
def kc : Bytes := [0x2f, 0x63]

/-- A node starts (revisions 1 and 2: health record and compaction marker), `/a` is created (3), `/b` is
created with lease 30 (4), `/a` is updated (5), `/c` is created (6) and deleted (7). -/
def setup : List (Call × List Outcome) :=
  [ (.start, oks 6),
    (.txn true (createTxn ka [1] 0), oks 1),
    (.txn true (createTxn kb [2] 30), oks 1),
    (.txn true (updateTxn ka 3 [3] 0), oks 1),
    (.txn true (createTxn kc [4] 0), oks 1),
    (.txn true (deleteTxn kc 6), oks 1) ]

/-- The world after the setup. -/
def world : World := runCalls setup World.init

/-- The system after the setup. -/
def sys : Sys := ⟨world, []⟩

theorem reachable : Reachable sys := runCalls_reachable setup (by decide +kernel)

/-- The history of the setup. -/
example : world.hist =
    [ ⟨1, healthKey, some (healthValue, 0)⟩, ⟨2, compactRevKey, some ([], 0)⟩, ⟨3, ka, some ([1], 0)⟩,
      ⟨4, kb, some ([2], 30)⟩, ⟨5, ka, some ([3], 0)⟩, ⟨6, kc, some ([4], 0)⟩, ⟨7, kc, none⟩ ] := by
  decide +kernel

end Verif.Demo
