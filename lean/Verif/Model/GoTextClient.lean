import Verif.Model.GoQuote
/-!
# Source text (Client)

Generated by `/verif/tools/gotext.py`; the literals are byte-for-byte copies of functions in `/repo` (`tools/gotext.py --check` compares them).
-/

namespace Verif.GoText.Client

open Verif.Go

/-- `/repo/pkg/client/client.go:58-74` -/
go_func f_List r#"func (c *client) List(ctx context.Context, key string, rev int) ([]Value, error) {
	resp, err := c.c.Get(ctx, key, clientv3.WithPrefix(), clientv3.WithRev(int64(rev)))
	if err != nil {
		return nil, err
	}

	var vals []Value
	for _, kv := range resp.Kvs {
		vals = append(vals, Value{
			Key:      kv.Key,
			Data:     kv.Value,
			Modified: kv.ModRevision,
		})
	}

	return vals, nil
}
"#

/-- `/repo/pkg/client/client.go:76-91` -/
go_func f_Get r#"func (c *client) Get(ctx context.Context, key string) (Value, error) {
	resp, err := c.c.Get(ctx, key)
	if err != nil {
		return Value{}, err
	}

	if len(resp.Kvs) == 1 {
		return Value{
			Key:      resp.Kvs[0].Key,
			Data:     resp.Kvs[0].Value,
			Modified: resp.Kvs[0].ModRevision,
		}, nil
	}

	return Value{}, ErrNotFound
}
"#

/-- `/repo/pkg/client/client.go:93-102` -/
go_func f_Put r#"func (c *client) Put(ctx context.Context, key string, value []byte) error {
	val, err := c.Get(ctx, key)
	if err != nil {
		return err
	}
	if val.Modified == 0 {
		return c.Create(ctx, key, value)
	}
	return c.Update(ctx, key, val.Modified, value)
}
"#

/-- `/repo/pkg/client/client.go:104-116` -/
go_func f_Create r#"func (c *client) Create(ctx context.Context, key string, value []byte) error {
	resp, err := c.c.Txn(ctx).
		If(clientv3.Compare(clientv3.ModRevision(key), "=", 0)).
		Then(clientv3.OpPut(key, string(value))).
		Commit()
	if err != nil {
		return err
	}
	if !resp.Succeeded {
		return ErrKeyExists
	}
	return nil
}
"#

/-- `/repo/pkg/client/client.go:118-131` -/
go_func f_Update r#"func (c *client) Update(ctx context.Context, key string, revision int64, value []byte) error {
	resp, err := c.c.Txn(ctx).
		If(clientv3.Compare(clientv3.ModRevision(key), "=", revision)).
		Then(clientv3.OpPut(key, string(value))).
		Else(clientv3.OpGet(key)).
		Commit()
	if err != nil {
		return err
	}
	if !resp.Succeeded {
		return fmt.Errorf("revision %d doesnt match", revision)
	}
	return nil
}
"#

/-- `/repo/pkg/client/client.go:133-146` -/
go_func f_Delete r#"func (c *client) Delete(ctx context.Context, key string, revision int64) error {
	resp, err := c.c.Txn(ctx).
		If(clientv3.Compare(clientv3.ModRevision(key), "=", revision)).
		Then(clientv3.OpDelete(key)).
		Else(clientv3.OpGet(key)).
		Commit()
	if err != nil {
		return err
	}
	if !resp.Succeeded {
		return fmt.Errorf("revision %d doesnt match", revision)
	}
	return nil
}
"#

/-- `/repo/pkg/migrator/util.go:12-29` -/
go_func f_putKey r#"func putKey(ctx context.Context, c client.Client, key string, value []byte) error {
	err := c.Create(ctx, key, value)
	if err == nil {
		return nil
	} else if !errors.Is(err, client.ErrKeyExists) {
		return fmt.Errorf("failed to create key %q: %w", key, err)
	}
	// failed to create key because it exists, make a few attempts to overwrite it
	for i := 0; i < 5 && err != nil; i++ {
		time.Sleep(50 * time.Millisecond)
		err = c.Put(ctx, key, value)

		if err == nil {
			return nil
		}
	}
	return fmt.Errorf("failed to put key %q: %w", key, err)
}
"#

/-- `/repo/pkg/migrator/migrator.go:17-19` -/
go_func f_keyFileName r#"func keyFileName(dir string, index int) string {
	return filepath.Join(dir, fmt.Sprintf("%d.key", index))
}
"#

/-- `/repo/pkg/migrator/migrator.go:21-23` -/
go_func f_dataFileName r#"func dataFileName(dir string, index int) string {
	return filepath.Join(dir, fmt.Sprintf("%d.data", index))
}
"#

/-- `/repo/pkg/migrator/migrator.go:26-50` -/
go_func f_BackupEtcd r#"func BackupEtcd(ctx context.Context, endpoint, dir string) error {
	client, err := clientv3.New(clientv3.Config{Endpoints: []string{endpoint}})
	if err != nil {
		return fmt.Errorf("failed to create etcd client: %w", err)
	}
	resp, err := client.Get(ctx, "", clientv3.WithPrefix(), clientv3.WithSort(clientv3.SortByKey, clientv3.SortDescend))
	if err != nil {
		return fmt.Errorf("failed to list keys from etcd: %w", err)
	}
	client.Close()

	if err := os.MkdirAll(dir, 0700); err != nil {
		return fmt.Errorf("failed to backup directory: %w", err)
	}
	for idx, kv := range resp.Kvs {
		logrus.WithFields(logrus.Fields{"index": idx, "key": string(kv.Key), "len": len(kv.Value)}).Print("writing key")
		if err := os.WriteFile(keyFileName(dir, idx), kv.Key, 0640); err != nil {
			return fmt.Errorf("failed to write key file %d: %w", idx, err)
		}
		if err := os.WriteFile(dataFileName(dir, idx), kv.Value, 0640); err != nil {
			return fmt.Errorf("failed to write data file %d: %w", idx, err)
		}
	}
	return nil
}
"#

/-- `/repo/pkg/migrator/migrator.go:53-87` -/
go_func f_RestoreToDqlite r#"func RestoreToDqlite(ctx context.Context, endpoint, dir string) error {
	client, err := client.New(k8s_dqlite_endpoint.ETCDConfig{
		Endpoints: []string{endpoint},
	})
	if err != nil {
		return fmt.Errorf("failed to create client: %w", err)
	}
	defer client.Close()

	idx := 0
	for {
		b, err := os.ReadFile(keyFileName(dir, idx))
		if err != nil {
			if !errors.Is(err, fs.ErrNotExist) {
				return fmt.Errorf("failed to read key file: %w", err)
			}
			logrus.WithField("entries", idx).Print("completed database restore")
			return nil
		}
		key := string(b)

		value, err := os.ReadFile(dataFileName(dir, idx))
		if err != nil {
			return fmt.Errorf("failed to read value file: %w", err)
		}

		log := logrus.WithFields(logrus.Fields{"index": idx, "key": key})
		log.Debug("restore key")
		if err := putKey(ctx, client, key, value); err != nil {
			log.Error("failed to restore key")
		}

		idx++
	}
}
"#

/-- `/repo/pkg/migrator/migrator.go:90-114` -/
go_func f_BackupDqlite r#"func BackupDqlite(ctx context.Context, endpoint, dir string) error {
	client, err := client.New(k8s_dqlite_endpoint.ETCDConfig{Endpoints: []string{endpoint}})
	if err != nil {
		return fmt.Errorf("failed to create k8s-dqlite client: %w", err)
	}
	resp, err := client.List(ctx, "/", 0)
	if err != nil {
		return fmt.Errorf("failed to list keys from dqlite: %w", err)
	}
	client.Close()

	if err := os.MkdirAll(dir, 0700); err != nil {
		return fmt.Errorf("failed to backup directory: %w", err)
	}
	for idx, kv := range resp {
		logrus.WithFields(logrus.Fields{"index": idx, "key": string(kv.Key), "len": len(kv.Data)}).Print("writing key")
		if err := os.WriteFile(keyFileName(dir, idx), kv.Key, 0640); err != nil {
			return fmt.Errorf("failed to write key file %d: %w", idx, err)
		}
		if err := os.WriteFile(dataFileName(dir, idx), kv.Data, 0640); err != nil {
			return fmt.Errorf("failed to write data file %d: %w", idx, err)
		}
	}
	return nil
}
"#

/-- `/repo/pkg/migrator/migrator.go:117-149` -/
go_func f_RestoreToEtcd r#"func RestoreToEtcd(ctx context.Context, endpoint, dir string) error {
	client, err := clientv3.New(clientv3.Config{Endpoints: []string{endpoint}})
	if err != nil {
		return fmt.Errorf("failed to create client: %w", err)
	}
	defer client.Close()

	idx := 0
	for {
		b, err := os.ReadFile(keyFileName(dir, idx))
		if err != nil {
			if !errors.Is(err, fs.ErrNotExist) {
				return fmt.Errorf("failed to read key file: %w", err)
			}
			logrus.WithField("entries", idx).Print("completed database restore")
			return nil
		}
		key := string(b)

		value, err := os.ReadFile(dataFileName(dir, idx))
		if err != nil {
			return fmt.Errorf("failed to read value file: %w", err)
		}

		log := logrus.WithFields(logrus.Fields{"index": idx, "key": key})
		log.Debug("restore key")
		if _, err := client.Put(ctx, key, string(value)); err != nil {
			log.Error("failed to restore key")
		}

		idx++
	}
}
"#

end Verif.GoText.Client
