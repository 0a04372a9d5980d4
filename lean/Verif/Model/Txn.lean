import Verif.Model.Basic
/-!
# bbolt transactions

go.etcd.io/bbolt is a dependency. Its interface as used by `/repo/pkg/ldbbolt/ldbbolt.go` is modelled by a small language of
transaction bodies (`Prog`), executed on a database value (`Db`).

Modelled: three buckets of byte-string keys and values, the sequence number of `id2entry`, `Put` refusing empty keys and keys over
32768 bytes (bbolt `MaxKeySize`), commit of a body that returns nil, roll-back of one that returns an error or panics.
Not modelled: the limit of 2 GiB on values, I/O errors, the page format.
-/
namespace Idm

/-- The buckets, ldbbolt.go:77-88. They exist once `Initialize` has run. -/
inductive Bkt where
  | dn2id | id2children | id2entry
  deriving DecidableEq, Repr

/-- Contents of the database file. -/
structure Db where
  tbl : Bkt → Str → Option Str
  /-- sequence number of bucket id2entry -/
  seq : Nat

/-- The database after `Initialize` on a new file, ldbbolt.go:71-96. -/
def Db.empty : Db := ⟨fun _ _ => none, 0⟩

/-- bbolt `MaxKeySize`. -/
def maxKeySize : Nat := 32768

/-- Set or remove one key. -/
def Db.set (db : Db) (b : Bkt) (k : Str) (v : Option Str) : Db :=
  { db with tbl := fun b' k' => if b' = b ∧ k' = k then v else db.tbl b' k' }

/-- The body of a transaction: `ret`/`fail` are `return nil`/`return err`, the rest are calls of `Bucket.Get`, `Put`, `Delete`,
`NextSequence` followed by the rest of the body. An error of `Put` is returned by all bodies that call it, so it ends the body. -/
inductive Prog (α : Type) where
  | ret (a : α)
  | fail (e : Err)
  | panic
  | hang
  | get (b : Bkt) (k : Str) (c : Option Str → Prog α)
  | put (b : Bkt) (k v : Str) (c : Prog α)
  | del (b : Bkt) (k : Str) (c : Prog α)
  | nextSeq (c : Nat → Prog α)

namespace Prog
variable {α β : Type}

def bind : Prog α → (α → Prog β) → Prog β
  | ret a, f => f a
  | fail e, _ => fail e
  | panic, _ => panic
  | hang, _ => hang
  | get b k c, f => get b k fun r => (c r).bind f
  | put b k v c, f => put b k v (c.bind f)
  | del b k c, f => del b k (c.bind f)
  | nextSeq c, f => nextSeq fun n => (c n).bind f

instance : Monad Prog where
  pure := ret
  bind := bind

/-- `Bucket.Get` -/
def get! (b : Bkt) (k : Str) : Prog (Option Str) := .get b k .ret
/-- `Bucket.Put` -/
def put! (b : Bkt) (k v : Str) : Prog Unit := .put b k v (.ret ())
/-- `Bucket.Delete` -/
def del! (b : Bkt) (k : Str) : Prog Unit := .del b k (.ret ())
/-- `Bucket.NextSequence` of id2entry -/
def nextSeq! : Prog Nat := .nextSeq .ret
/-- A Go call made inside a transaction body that does not touch the database. -/
def lift : Res α → Prog α
  | .ok a => ret a
  | .err e => fail e
  | .panic => panic
  | .hang => hang

/-- Execute a body on the transaction's private copy of the database. The sequence number is a `uint64`. -/
def run : Prog α → Db → Res (α × Db)
  | ret a, db => .ok (a, db)
  | fail e, _ => .err e
  | panic, _ => .panic
  | hang, _ => .hang
  | get b k c, db => (c (db.tbl b k)).run db
  | put b k v c, db => if k = [] ∨ k.length > maxKeySize then .err .other else c.run (db.set b k (some v))
  | del b k c, db => c.run (db.set b k none)
  | nextSeq c, db => let n := (db.seq + 1) % 2 ^ 64; (c n).run { db with seq := n }

end Prog

/-- bbolt `DB.Update`: commit if the body returns nil, else roll back (also when it panics). -/
def update {α : Type} (p : Prog α) (db : Db) : Res α × Db :=
  match p.run db with
  | .ok (a, db') => (.ok a, db')
  | .err e => (.err e, db)
  | .panic => (.panic, db)
  | .hang => (.hang, db)

/-- bbolt `DB.View`: a read-only transaction. -/
def view {α : Type} (p : Prog α) (db : Db) : Res α :=
  match p.run db with
  | .ok (a, _) => .ok a
  | .err e => .err e
  | .panic => .panic
  | .hang => .hang

end Idm
