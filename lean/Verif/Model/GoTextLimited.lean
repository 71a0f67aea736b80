import Verif.Model.GoQuote
/-!
# Source text (Limited)

Generated by `/verif/tools/gotext.py`; the literals are byte-for-byte copies of functions in `/repo` (`tools/gotext.py --check` compares them).
-/

namespace Verif.GoText.Limited

open Verif.Go

/-- `/repo/pkg/limited/create.go:11-22` -/
go_func f_isCreate r#"func isCreate(txn *etcdserverpb.TxnRequest) *etcdserverpb.PutRequest {
	if len(txn.Compare) == 1 &&
		txn.Compare[0].Target == etcdserverpb.Compare_MOD &&
		txn.Compare[0].Result == etcdserverpb.Compare_EQUAL &&
		txn.Compare[0].GetModRevision() == 0 &&
		len(txn.Failure) == 0 &&
		len(txn.Success) == 1 &&
		txn.Success[0].GetRequestPut() != nil {
		return txn.Success[0].GetRequestPut()
	}
	return nil
}
"#

/-- `/repo/pkg/limited/create.go:24-72` -/
go_func f_create r#"func (l *LimitedServer) create(ctx context.Context, put *etcdserverpb.PutRequest) (*etcdserverpb.TxnResponse, error) {
	var err error
	createCnt.Add(ctx, 1)
	ctx, span := otelTracer.Start(ctx, fmt.Sprintf("%s.create", otelName))
	defer func() {
		span.RecordError(err)
		span.End()
	}()
	span.SetAttributes(
		attribute.String("key", string(put.Key)),
		attribute.Int64("lease", put.Lease),
	)

	if put.IgnoreLease {
		return nil, unsupported("ignoreLease")
	} else if put.IgnoreValue {
		return nil, unsupported("ignoreValue")
	} else if put.PrevKv {
		return nil, unsupported("prevKv")
	}

	rev, created, err := l.backend.Create(ctx, put.Key, put.Value, put.Lease)
	if err != nil {
		return nil, err
	}

	span.SetAttributes(attribute.Int64("revision", rev))
	if !created {
		span.AddEvent("key exists")
		return &etcdserverpb.TxnResponse{
			Header:    txnHeader(rev),
			Succeeded: false,
		}, nil
	}

	return &etcdserverpb.TxnResponse{
		Header: txnHeader(rev),
		Responses: []*etcdserverpb.ResponseOp{
			{
				Response: &etcdserverpb.ResponseOp_ResponsePut{
					ResponsePut: &etcdserverpb.PutResponse{
						Header: txnHeader(rev),
					},
				},
			},
		},
		Succeeded: true,
	}, nil
}
"#

/-- `/repo/pkg/limited/update.go:11-26` -/
go_func f_isUpdate r#"func isUpdate(txn *etcdserverpb.TxnRequest) (int64, []byte, []byte, int64, bool) {
	if len(txn.Compare) == 1 &&
		txn.Compare[0].Target == etcdserverpb.Compare_MOD &&
		txn.Compare[0].Result == etcdserverpb.Compare_EQUAL &&
		len(txn.Success) == 1 &&
		txn.Success[0].GetRequestPut() != nil &&
		len(txn.Failure) == 1 &&
		txn.Failure[0].GetRequestRange() != nil {
		return txn.Compare[0].GetModRevision(),
			txn.Compare[0].Key,
			txn.Success[0].GetRequestPut().Value,
			txn.Success[0].GetRequestPut().Lease,
			true
	}
	return 0, nil, nil, 0, false
}
"#

/-- `/repo/pkg/limited/update.go:28-84` -/
go_func f_update r#"func (l *LimitedServer) update(ctx context.Context, rev int64, key, value []byte, lease int64) (_ *etcdserverpb.TxnResponse, err error) {
	updateCnt.Add(ctx, 1)

	ctx, span := otelTracer.Start(ctx, fmt.Sprintf("%s.update", otelName))
	defer func() {
		span.RecordError(err)
		span.End()
	}()
	span.SetAttributes(
		attribute.String("key", string(key)),
		attribute.Int64("lease", lease),
		attribute.Int64("revision", rev),
	)

	var succeeded bool
	if rev == 0 {
		rev, succeeded, err = l.backend.Create(ctx, key, value, lease)
	} else {
		rev, succeeded, err = l.backend.Update(ctx, key, value, rev, lease)
	}
	if err != nil {
		return nil, err
	}
	span.SetAttributes(attribute.Bool("updated", succeeded), attribute.Int64("revision", rev))

	resp := &etcdserverpb.TxnResponse{
		Header:    txnHeader(rev),
		Succeeded: succeeded,
	}

	if succeeded {
		resp.Responses = []*etcdserverpb.ResponseOp{
			{
				Response: &etcdserverpb.ResponseOp_ResponsePut{
					ResponsePut: &etcdserverpb.PutResponse{
						Header: txnHeader(rev),
					},
				},
			},
		}
	} else {
		rev, kv, err := l.backend.List(ctx, key, nil, 1, rev)
		if err != nil {
			return nil, err
		}
		resp.Responses = []*etcdserverpb.ResponseOp{{
			Response: &etcdserverpb.ResponseOp_ResponseRange{
				ResponseRange: &etcdserverpb.RangeResponse{
					Header: txnHeader(rev),
					Kvs:    toKVs(kv...),
				},
			},
		}}
	}

	return resp, nil
}
"#

/-- `/repo/pkg/limited/delete.go:11-22` -/
go_func f_isDelete r#"func isDelete(txn *etcdserverpb.TxnRequest) (int64, []byte, bool) {
	if len(txn.Compare) == 1 &&
		txn.Compare[0].Target == etcdserverpb.Compare_MOD &&
		txn.Compare[0].Result == etcdserverpb.Compare_EQUAL &&
		len(txn.Failure) == 1 &&
		txn.Failure[0].GetRequestRange() != nil &&
		len(txn.Success) == 1 &&
		txn.Success[0].GetRequestDeleteRange() != nil {
		return txn.Compare[0].GetModRevision(), txn.Success[0].GetRequestDeleteRange().Key, true
	}
	return 0, nil, false
}
"#

/-- `/repo/pkg/limited/delete.go:24-76` -/
go_func f_delete r#"func (l *LimitedServer) delete(ctx context.Context, key []byte, revision int64) (_ *etcdserverpb.TxnResponse, err error) {
	deleteCnt.Add(ctx, 1)
	ctx, span := otelTracer.Start(ctx, fmt.Sprintf("%s.delete", otelName))
	defer func() {
		span.RecordError(err)
		span.End()
	}()
	span.SetAttributes(
		attribute.String("key", string(key)),
		attribute.Int64("revision", revision),
	)

	rev, deleted, err := l.backend.Delete(ctx, key, revision)
	if err != nil {
		return nil, err
	}

	span.SetAttributes(attribute.Bool("deleted", deleted))

	resp := &etcdserverpb.TxnResponse{
		Header:    txnHeader(rev),
		Succeeded: deleted,
	}

	if deleted {
		resp.Responses = []*etcdserverpb.ResponseOp{
			{
				Response: &etcdserverpb.ResponseOp_ResponseDeleteRange{
					ResponseDeleteRange: &etcdserverpb.DeleteRangeResponse{
						Header: txnHeader(rev),
					},
				},
			},
		}
	} else {
		rev, kv, err := l.backend.List(ctx, key, nil, 1, rev)
		if err != nil {
			return nil, err
		}
		resp.Responses = []*etcdserverpb.ResponseOp{
			{
				Response: &etcdserverpb.ResponseOp_ResponseRange{
					ResponseRange: &etcdserverpb.RangeResponse{
						Header: txnHeader(rev),
						Kvs:    toKVs(kv...),
					},
				},
			},
		}

	}
	return resp, nil
}
"#

/-- `/repo/pkg/limited/compact.go:10-20` -/
go_func f_isCompact r#"func isCompact(txn *etcdserverpb.TxnRequest) bool {
	// See https://github.com/kubernetes/kubernetes/blob/442a69c3bdf6fe8e525b05887e57d89db1e2f3a5/staging/src/k8s.io/apiserver/pkg/storage/etcd3/compact.go#L72
	return len(txn.Compare) == 1 &&
		txn.Compare[0].Target == etcdserverpb.Compare_VERSION &&
		txn.Compare[0].Result == etcdserverpb.Compare_EQUAL &&
		len(txn.Success) == 1 &&
		txn.Success[0].GetRequestPut() != nil &&
		len(txn.Failure) == 1 &&
		txn.Failure[0].GetRequestRange() != nil &&
		string(txn.Compare[0].Key) == "compact_rev_key"
}
"#

/-- `/repo/pkg/limited/compact.go:22-39` -/
go_func f_compact r#"func (l *LimitedServer) compact(ctx context.Context) (*etcdserverpb.TxnResponse, error) {
	// return comparison failure so that the apiserver does not bother compacting
	return &etcdserverpb.TxnResponse{
		Header:    &etcdserverpb.ResponseHeader{},
		Succeeded: false,
		Responses: []*etcdserverpb.ResponseOp{
			{
				Response: &etcdserverpb.ResponseOp_ResponseRange{
					ResponseRange: &etcdserverpb.RangeResponse{
						Header: &etcdserverpb.ResponseHeader{},
						Kvs:    []*mvccpb.KeyValue{{}},
						Count:  1,
					},
				},
			},
		},
	}, nil
}
"#

/-- `/repo/pkg/limited/get.go:11-34` -/
go_func f_get r#"func (l *LimitedServer) get(ctx context.Context, r *etcdserverpb.RangeRequest) (*RangeResponse, error) {
	var err error
	getCnt.Add(ctx, 1)
	ctx, span := otelTracer.Start(ctx, fmt.Sprintf("%s.get", otelName))
	defer func() {
		span.RecordError(err)
		span.End()
	}()

	span.SetAttributes(
		attribute.String("key", string(r.Key)),
		attribute.Int64("limit", r.Limit),
		attribute.Int64("revision", r.Revision),
	)

	rev, kv, err := l.backend.List(ctx, r.Key, nil, 1, r.Revision)
	if err != nil {
		return nil, err
	}
	return &RangeResponse{
		Header: txnHeader(rev),
		Kvs:    kv,
	}, nil
}
"#

/-- `/repo/pkg/limited/list.go:12-84` -/
go_func f_list r#"func (l *LimitedServer) list(ctx context.Context, r *etcdserverpb.RangeRequest) (*RangeResponse, error) {
	var err error
	listCnt.Add(ctx, 1)
	ctx, span := otelTracer.Start(ctx, fmt.Sprintf("%s.list", otelName))
	defer func() {
		span.RecordError(err)
		span.End()
	}()

	revision := r.Revision
	span.SetAttributes(
		attribute.String("key", string(r.Key)),
		attribute.String("rangeEnd", string(r.RangeEnd)),
		attribute.Int64("revision", r.Revision),
	)
	if len(r.RangeEnd) == 0 {
		return nil, fmt.Errorf("invalid range end length of 0")
	}

	if r.CountOnly {
		rev, count, err := l.backend.Count(ctx, r.Key, r.RangeEnd, revision)
		if err != nil {
			return nil, err
		}
		span.SetAttributes(attribute.Int64("count", count))

		logrus.Tracef("LIST COUNT key=%s, r.RangeEnd=%s, revision=%d, currentRev=%d count=%d", r.Key, r.RangeEnd, revision, rev, count)
		return &RangeResponse{
			Header: txnHeader(rev),
			Count:  count,
		}, nil
	}

	limit := r.Limit
	if limit > 0 {
		limit++
	}
	span.SetAttributes(attribute.Int64("limit", limit))

	rev, kvs, err := l.backend.List(ctx, r.Key, r.RangeEnd, limit, revision)
	if err != nil {
		return nil, err
	}

	resp := &RangeResponse{
		Header: txnHeader(rev),
		Count:  int64(len(kvs)),
		Kvs:    kvs,
	}
	span.SetAttributes(attribute.Int64("list-count", resp.Count))

	// count the actual number of results if there are more items in the db.
	if limit > 0 && resp.Count > r.Limit {
		resp.More = true
		resp.Kvs = kvs[0 : limit-1]

		if revision == 0 {
			revision = rev
		}

		// count the actual number of results if there are more items in the db.
		rev, resp.Count, err = l.backend.Count(ctx, r.Key, r.RangeEnd, revision)
		if err != nil {
			return nil, err
		}

		span.SetAttributes(attribute.Int64("count", resp.Count))
		logrus.Tracef("LIST COUNT key=%s, r.RangeEnd=%s, revision=%d, currentRev=%d count=%d", r.Key, r.RangeEnd, revision, rev, resp.Count)
		resp.Header = txnHeader(rev)
	}

	return resp, nil
}
"#

/-- `/repo/pkg/limited/limited.go:16-23` -/
go_func f_Range r#"func (l *LimitedServer) Range(ctx context.Context, r *etcdserverpb.RangeRequest) (*RangeResponse, error) {
	ctx, span := otelTracer.Start(ctx, fmt.Sprintf("%s.Range", otelName))
	defer span.End()
	if len(r.RangeEnd) == 0 {
		return l.get(ctx, r)
	}
	return l.list(ctx, r)
}
"#

/-- `/repo/pkg/limited/limited.go:25-29` -/
go_func f_txnHeader r#"func txnHeader(rev int64) *etcdserverpb.ResponseHeader {
	return &etcdserverpb.ResponseHeader{
		Revision: rev,
	}
}
"#

/-- `/repo/pkg/limited/limited.go:31-61` -/
go_func f_Txn r#"func (l *LimitedServer) Txn(ctx context.Context, txn *etcdserverpb.TxnRequest) (*etcdserverpb.TxnResponse, error) {
	if put := isCreate(txn); put != nil {
		resp, err := l.create(ctx, put)
		if err != nil {
			err = fmt.Errorf("create transaction failed for key %s: %w", string(put.Key), err)
		}
		return resp, err
	}
	if rev, key, ok := isDelete(txn); ok {
		resp, err := l.delete(ctx, key, rev)
		if err != nil {
			err = fmt.Errorf("delete transaction failed for key %s: %w", string(key), err)
		}
		return resp, err
	}
	if rev, key, value, lease, ok := isUpdate(txn); ok {
		resp, err := l.update(ctx, rev, key, value, lease)
		if err != nil {
			err = fmt.Errorf("update transaction failed for key %s: %w", string(key), err)
		}
		return resp, err
	}
	if isCompact(txn) {
		resp, err := l.compact(ctx)
		if err != nil {
			err = fmt.Errorf("compact transaction failed: %w", err)
		}
		return resp, err
	}
	return nil, fmt.Errorf("unsupported transaction: %v", txn)
}
"#

/-- `/repo/pkg/limited/server.go:36-91` -/
go_func f_KVServerBridge_Range r#"func (k *KVServerBridge) Range(ctx context.Context, r *etcdserverpb.RangeRequest) (*etcdserverpb.RangeResponse, error) {
	if r.KeysOnly {
		return nil, unsupported("keysOnly")
	}

	if r.MaxCreateRevision != 0 {
		return nil, unsupported("maxCreateRevision")
	}

	if r.SortOrder != 0 {
		return nil, unsupported("sortOrder")
	}

	if r.SortTarget != 0 {
		return nil, unsupported("sortTarget")
	}

	if r.Serializable {
		return nil, unsupported("serializable")
	}

	if r.KeysOnly {
		return nil, unsupported("keysOnly")
	}

	if r.MinModRevision != 0 {
		return nil, unsupported("minModRevision")
	}

	if r.MinCreateRevision != 0 {
		return nil, unsupported("minCreateRevision")
	}

	if r.MaxCreateRevision != 0 {
		return nil, unsupported("maxCreateRevision")
	}

	if r.MaxModRevision != 0 {
		return nil, unsupported("maxModRevision")
	}

	resp, err := k.limited.Range(ctx, r)
	if err != nil {
		logrus.Errorf("error while range on %s %s: %v", r.Key, r.RangeEnd, err)
		return nil, err
	}

	rangeResponse := &etcdserverpb.RangeResponse{
		More:   resp.More,
		Count:  resp.Count,
		Header: resp.Header,
		Kvs:    toKVs(resp.Kvs...),
	}

	return rangeResponse, nil
}
"#

/-- `/repo/pkg/limited/server.go:93-106` -/
go_func f_toKVs r#"func toKVs(kvs ...*KeyValue) []*mvccpb.KeyValue {
	if len(kvs) == 0 || kvs[0] == nil {
		return nil
	}

	ret := make([]*mvccpb.KeyValue, 0, len(kvs))
	for _, kv := range kvs {
		newKV := toKV(kv)
		if newKV != nil {
			ret = append(ret, newKV)
		}
	}
	return ret
}
"#

/-- `/repo/pkg/limited/server.go:108-119` -/
go_func f_toKV r#"func toKV(kv *KeyValue) *mvccpb.KeyValue {
	if kv == nil {
		return nil
	}
	return &mvccpb.KeyValue{
		Key:            []byte(kv.Key),
		Value:          kv.Value,
		Lease:          kv.Lease,
		CreateRevision: kv.CreateRevision,
		ModRevision:    kv.ModRevision,
	}
}
"#

/-- `/repo/pkg/limited/server.go:121-123` -/
go_func f_Put r#"func (k *KVServerBridge) Put(ctx context.Context, r *etcdserverpb.PutRequest) (*etcdserverpb.PutResponse, error) {
	return nil, fmt.Errorf("put is not supported")
}
"#

/-- `/repo/pkg/limited/server.go:125-127` -/
go_func f_DeleteRange r#"func (k *KVServerBridge) DeleteRange(ctx context.Context, r *etcdserverpb.DeleteRangeRequest) (*etcdserverpb.DeleteRangeResponse, error) {
	return nil, fmt.Errorf("delete is not supported")
}
"#

/-- `/repo/pkg/limited/server.go:129-135` -/
go_func f_KVServerBridge_Txn r#"func (k *KVServerBridge) Txn(ctx context.Context, r *etcdserverpb.TxnRequest) (*etcdserverpb.TxnResponse, error) {
	res, err := k.limited.Txn(ctx, r)
	if err != nil {
		logrus.Errorf("error in txn: %v", err)
	}
	return res, err
}
"#

/-- `/repo/pkg/limited/server.go:137-143` -/
go_func f_Compact r#"func (k *KVServerBridge) Compact(ctx context.Context, r *etcdserverpb.CompactionRequest) (*etcdserverpb.CompactionResponse, error) {
	return &etcdserverpb.CompactionResponse{
		Header: &etcdserverpb.ResponseHeader{
			Revision: r.Revision,
		},
	}, nil
}
"#

/-- `/repo/pkg/limited/server.go:145-147` -/
go_func f_unsupported r#"func unsupported(field string) error {
	return fmt.Errorf("%s is unsupported", field)
}
"#

/-- `/repo/pkg/limited/lease.go:10-16` -/
go_func f_LeaseGrant r#"func (s *KVServerBridge) LeaseGrant(ctx context.Context, req *etcdserverpb.LeaseGrantRequest) (*etcdserverpb.LeaseGrantResponse, error) {
	return &etcdserverpb.LeaseGrantResponse{
		Header: &etcdserverpb.ResponseHeader{},
		ID:     req.TTL,
		TTL:    req.TTL,
	}, nil
}
"#

/-- `/repo/pkg/limited/lease.go:18-20` -/
go_func f_LeaseRevoke r#"func (s *KVServerBridge) LeaseRevoke(context.Context, *etcdserverpb.LeaseRevokeRequest) (*etcdserverpb.LeaseRevokeResponse, error) {
	return nil, fmt.Errorf("lease revoke is not supported")
}
"#

/-- `/repo/pkg/limited/lease.go:22-24` -/
go_func f_LeaseKeepAlive r#"func (s *KVServerBridge) LeaseKeepAlive(etcdserverpb.Lease_LeaseKeepAliveServer) error {
	return fmt.Errorf("lease keep alive is not supported")
}
"#

/-- `/repo/pkg/limited/lease.go:26-28` -/
go_func f_LeaseTimeToLive r#"func (s *KVServerBridge) LeaseTimeToLive(context.Context, *etcdserverpb.LeaseTimeToLiveRequest) (*etcdserverpb.LeaseTimeToLiveResponse, error) {
	return nil, fmt.Errorf("lease time to live is not supported")
}
"#

/-- `/repo/pkg/limited/lease.go:30-32` -/
go_func f_LeaseLeases r#"func (s *KVServerBridge) LeaseLeases(context.Context, *etcdserverpb.LeaseLeasesRequest) (*etcdserverpb.LeaseLeasesResponse, error) {
	return nil, fmt.Errorf("lease leases is not supported")
}
"#

end Verif.GoText.Limited
