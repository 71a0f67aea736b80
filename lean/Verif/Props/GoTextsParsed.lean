import Verif.Model.GoTextBatched
import Verif.Model.GoTextWatch
import Verif.Model.GoTextStream
import Verif.Model.GoTextPrepared
import Verif.Model.GoTextTtl
import Verif.Model.GoTextSchema
import Verif.Model.GoTextClient
import Verif.Model.GoTextLife
import Verif.Model.GoTextErrors
/-!
# The functions that run are the parsed texts

For C100, C101 and C102 this is beside their theorems. `tools/gotext.py --check` compares the texts with `/repo`.
-/

namespace Verif.Go

open Verif.GoText

/-- The texts of Model/GoTextBatched. -/
def batchedTexts : List String := [
    Batched.f_BeginTx_text, Batched.f_ExecContext_text, Batched.f_run_text, Batched.f_execQueue_text, Batched.f_Close_text,
    Batched.f_exec_text, Batched.f_LastInsertId_text, Batched.f_RowsAffected_text]

theorem C103_parsed : batchedTexts.map (fun text => parseFunc (codesOf text)) = ([
    Batched.f_BeginTx, Batched.f_ExecContext, Batched.f_run, Batched.f_execQueue, Batched.f_Close, Batched.f_exec, Batched.f_LastInsertId,
    Batched.f_RowsAffected] : List FuncDecl).map some := by
  simp only [batchedTexts, List.map_cons, List.map_nil,
    Batched.f_BeginTx_parse, Batched.f_ExecContext_parse, Batched.f_run_parse, Batched.f_execQueue_parse, Batched.f_Close_parse,
    Batched.f_exec_parse, Batched.f_LastInsertId_parse, Batched.f_RowsAffected_parse]

/-- The texts of Model/GoTextWatch. -/
def watchTexts : List String := [
    Watch.f_publish_text, Watch.f_update_text, Watch.f_Watch_text, Watch.f_initialEvents_text, Watch.f_Unwatch_text,
    Watch.f_notifyWatcherPoll_text, Watch.f_poll_text, Watch.f_publishEvents_text, Watch.f_getLatestEvents_text, Watch.f_WatcherGroup_text]

theorem C104_parsed : watchTexts.map (fun text => parseFunc (codesOf text)) = ([
    Watch.f_publish, Watch.f_update, Watch.f_Watch, Watch.f_initialEvents, Watch.f_Unwatch, Watch.f_notifyWatcherPoll, Watch.f_poll,
    Watch.f_publishEvents, Watch.f_getLatestEvents, Watch.f_WatcherGroup] : List FuncDecl).map some := by
  simp only [watchTexts, List.map_cons, List.map_nil,
    Watch.f_publish_parse, Watch.f_update_parse, Watch.f_Watch_parse, Watch.f_initialEvents_parse, Watch.f_Unwatch_parse,
    Watch.f_notifyWatcherPoll_parse, Watch.f_poll_parse, Watch.f_publishEvents_parse, Watch.f_getLatestEvents_parse,
    Watch.f_WatcherGroup_parse]

/-- The texts of Model/GoTextStream. -/
def streamTexts : List String := [
    Stream.f_Watch_text, Stream.f_ServeRequests_text, Stream.f_ServeUpdates_text, Stream.f_sendUpdates_text, Stream.f_ServeProgress_text,
    Stream.f_sendProgress_text, Stream.f_Create_text, Stream.f_Close_text, Stream.f_RequestProgress_text]

theorem C105_parsed : streamTexts.map (fun text => parseFunc (codesOf text)) = ([
    Stream.f_Watch, Stream.f_ServeRequests, Stream.f_ServeUpdates, Stream.f_sendUpdates, Stream.f_ServeProgress, Stream.f_sendProgress,
    Stream.f_Create, Stream.f_Close, Stream.f_RequestProgress] : List FuncDecl).map some := by
  simp only [streamTexts, List.map_cons, List.map_nil,
    Stream.f_Watch_parse, Stream.f_ServeRequests_parse, Stream.f_ServeUpdates_parse, Stream.f_sendUpdates_parse,
    Stream.f_ServeProgress_parse, Stream.f_sendProgress_parse, Stream.f_Create_parse, Stream.f_Close_parse, Stream.f_RequestProgress_parse]

/-- The texts of Model/GoTextPrepared. -/
def preparedTexts : List String := [
    Prepared.f_preparedDb_ExecContext_text, Prepared.f_preparedDb_QueryContext_text, Prepared.f_preparedDb_PrepareContext_text,
    Prepared.f_prepare_text, Prepared.f_Conn_text, Prepared.f_BeginTx_text, Prepared.f_Close_text,
    Prepared.f_preparedTx_PrepareContext_text, Prepared.f_preparedTx_ExecContext_text, Prepared.f_preparedTx_QueryContext_text]

theorem C107_parsed : preparedTexts.map (fun text => parseFunc (codesOf text)) = ([
    Prepared.f_preparedDb_ExecContext, Prepared.f_preparedDb_QueryContext, Prepared.f_preparedDb_PrepareContext, Prepared.f_prepare,
    Prepared.f_Conn, Prepared.f_BeginTx, Prepared.f_Close, Prepared.f_preparedTx_PrepareContext, Prepared.f_preparedTx_ExecContext,
    Prepared.f_preparedTx_QueryContext] : List FuncDecl).map some := by
  simp only [preparedTexts, List.map_cons, List.map_nil,
    Prepared.f_preparedDb_ExecContext_parse, Prepared.f_preparedDb_QueryContext_parse, Prepared.f_preparedDb_PrepareContext_parse,
    Prepared.f_prepare_parse, Prepared.f_Conn_parse, Prepared.f_BeginTx_parse, Prepared.f_Close_parse,
    Prepared.f_preparedTx_PrepareContext_parse, Prepared.f_preparedTx_ExecContext_parse, Prepared.f_preparedTx_QueryContext_parse]

/-- The texts of Model/GoTextTtl. -/
def ttlTexts : List String := [
    Ttl.f_ttl_text]

theorem C109_parsed : ttlTexts.map (fun text => parseFunc (codesOf text)) = ([
    Ttl.f_ttl] : List FuncDecl).map some := by
  simp only [ttlTexts, List.map_cons, List.map_nil,
    Ttl.f_ttl_parse]

/-- The texts of Model/GoTextSchema. -/
def schemaTexts : List String := [
    Schema.f_NewSchemaVersion_text, Schema.f_Major_text, Schema.f_Minor_text, Schema.f_CompatibleWith_text, Schema.f_applySchemaV0_1_text,
    Schema.f_applySchemaV1_0_text, Schema.f_hasTable_text, Schema.f_setup_text, Schema.f_NewDriver_text]

theorem C111_parsed : schemaTexts.map (fun text => parseFunc (codesOf text)) = ([
    Schema.f_NewSchemaVersion, Schema.f_Major, Schema.f_Minor, Schema.f_CompatibleWith, Schema.f_applySchemaV0_1, Schema.f_applySchemaV1_0,
    Schema.f_hasTable, Schema.f_setup, Schema.f_NewDriver] : List FuncDecl).map some := by
  simp only [schemaTexts, List.map_cons, List.map_nil,
    Schema.f_NewSchemaVersion_parse, Schema.f_Major_parse, Schema.f_Minor_parse, Schema.f_CompatibleWith_parse,
    Schema.f_applySchemaV0_1_parse, Schema.f_applySchemaV1_0_parse, Schema.f_hasTable_parse, Schema.f_setup_parse, Schema.f_NewDriver_parse]

/-- The texts of Model/GoTextClient. -/
def clientTexts : List String := [
    Client.f_List_text, Client.f_Get_text, Client.f_Put_text, Client.f_Create_text, Client.f_Update_text, Client.f_Delete_text,
    Client.f_putKey_text, Client.f_keyFileName_text, Client.f_dataFileName_text, Client.f_BackupEtcd_text, Client.f_RestoreToDqlite_text,
    Client.f_BackupDqlite_text, Client.f_RestoreToEtcd_text]

theorem C112_parsed : clientTexts.map (fun text => parseFunc (codesOf text)) = ([
    Client.f_List, Client.f_Get, Client.f_Put, Client.f_Create, Client.f_Update, Client.f_Delete, Client.f_putKey, Client.f_keyFileName,
    Client.f_dataFileName, Client.f_BackupEtcd, Client.f_RestoreToDqlite, Client.f_BackupDqlite, Client.f_RestoreToEtcd] : List FuncDecl).map some := by
  simp only [clientTexts, List.map_cons, List.map_nil,
    Client.f_List_parse, Client.f_Get_parse, Client.f_Put_parse, Client.f_Create_parse, Client.f_Update_parse, Client.f_Delete_parse,
    Client.f_putKey_parse, Client.f_keyFileName_parse, Client.f_dataFileName_parse, Client.f_BackupEtcd_parse,
    Client.f_RestoreToDqlite_parse, Client.f_BackupDqlite_parse, Client.f_RestoreToEtcd_parse]

/-- The texts of Model/GoTextLife. -/
def lifeTexts : List String := [
    Life.f_Start_text, Life.f_Stop_text, Life.f_Backend_Close_text, Life.f_startWatch_text]

theorem C114_parsed : lifeTexts.map (fun text => parseFunc (codesOf text)) = ([
    Life.f_Start, Life.f_Stop, Life.f_Backend_Close, Life.f_startWatch] : List FuncDecl).map some := by
  simp only [lifeTexts, List.map_cons, List.map_nil,
    Life.f_Start_parse, Life.f_Stop_parse, Life.f_Backend_Close_parse, Life.f_startWatch_parse]

/-- The texts of Model/GoTextErrors. -/
def errorsTexts : List String := [
    Errors.f_dqliteRetry_text, Errors.f_errorToResultLabel_text, Errors.f_recordTxResult_text, Errors.f_recordOpResult_text]

theorem C115_parsed : errorsTexts.map (fun text => parseFunc (codesOf text)) = ([
    Errors.f_dqliteRetry, Errors.f_errorToResultLabel, Errors.f_recordTxResult, Errors.f_recordOpResult] : List FuncDecl).map some := by
  simp only [errorsTexts, List.map_cons, List.map_nil,
    Errors.f_dqliteRetry_parse, Errors.f_errorToResultLabel_parse, Errors.f_recordTxResult_parse, Errors.f_recordOpResult_parse]

end Verif.Go
