import Verif.Model.Bolt
/-! Encoding of ids and execution of transaction bodies. -/
namespace Idm

theorem decodeId_idToBytes {n : Nat} (h : n < 2 ^ 64) (rest : Str) : decodeId (idToBytes n ++ rest) = .ok n := by
  simp only [idToBytes, List.cons_append, List.nil_append, decodeId, id8, UInt8.toNat_ofNat']
  congr 1
  omega

theorem decodeId_idToBytes' {n : Nat} (h : n < 2 ^ 64) : decodeId (idToBytes n) = .ok n := by
  simpa using decodeId_idToBytes h []

theorem idToBytes_inj {m n : Nat} (hm : m < 2 ^ 64) (hn : n < 2 ^ 64) (h : idToBytes m = idToBytes n) : m = n := by
  have h1 := decodeId_idToBytes' hm
  have h2 := decodeId_idToBytes' hn
  rw [h, h2] at h1
  simpa using h1.symm

theorem idToBytes_length (n : Nat) : (idToBytes n).length = 8 := rfl

theorem idToBytes_ne_nil (n : Nat) : idToBytes n ≠ [] := by simp [idToBytes]

theorem decodeIds_cons {n : Nat} (h : n < 2 ^ 64) (rest : Str) : decodeIds (idToBytes n ++ rest) = n :: decodeIds rest := by
  simp only [idToBytes, List.cons_append, List.nil_append, decodeIds, id8, UInt8.toNat_ofNat']
  congr 1
  omega

theorem decodeIds_encodeIds {ids : List Nat} (h : ∀ n ∈ ids, n < 2 ^ 64) : decodeIds (encodeIds ids) = ids := by
  induction ids with
  | nil => rfl
  | cons a as ih =>
    rw [encodeIds, List.flatMap_cons, decodeIds_cons (h a List.mem_cons_self)]
    congr 1
    exact ih fun n hn => h n (List.mem_cons_of_mem _ hn)

theorem encodeIds_length (ids : List Nat) : (encodeIds ids).length = 8 * ids.length := by
  induction ids with
  | nil => rfl
  | cons a as ih => rw [encodeIds, List.flatMap_cons, List.length_append, idToBytes_length, ← encodeIds, ih, List.length_cons]; omega

theorem encodeIds_append (xs ys : List Nat) : encodeIds (xs ++ ys) = encodeIds xs ++ encodeIds ys := by simp [encodeIds]

theorem encodeIds_single (x : Nat) : encodeIds [x] = idToBytes x := by simp [encodeIds]

namespace Prog
variable {α β : Type}

theorem run_bind (p : Prog α) (f : α → Prog β) (db : Db) :
    (p >>= f).run db = (p.run db >>= fun r => (f r.1).run r.2) := by
  show (p.bind f).run db = _
  induction p generalizing db with
  | ret a => rfl
  | fail e => rfl
  | panic => rfl
  | hang => rfl
  | get b k c ih => simp only [bind, run]; exact ih _ db
  | put b k v c ih =>
    simp only [bind, run]
    split
    · rfl
    · exact ih _
  | del b k c ih => simp only [bind, run]; exact ih _
  | nextSeq c ih => simp only [bind, run]; exact ih _ _

@[simp] theorem run_ret (a : α) (db : Db) : (ret a).run db = .ok (a, db) := rfl
@[simp] theorem run_pure (a : α) (db : Db) : (pure a : Prog α).run db = .ok (a, db) := rfl
@[simp] theorem run_fail (e : Err) (db : Db) : (fail e : Prog α).run db = .err e := rfl
@[simp] theorem run_panic (db : Db) : (panic : Prog α).run db = .panic := rfl
@[simp] theorem run_hang (db : Db) : (hang : Prog α).run db = .hang := rfl
@[simp] theorem run_get! (b : Bkt) (k : Str) (db : Db) : (get! b k).run db = .ok (db.tbl b k, db) := rfl
@[simp] theorem run_del! (b : Bkt) (k : Str) (db : Db) : (del! b k).run db = .ok ((), db.set b k none) := rfl

theorem run_put! {b : Bkt} {k v : Str} {db : Db} (h : k ≠ []) (h' : k.length ≤ maxKeySize) :
    (put! b k v).run db = .ok ((), db.set b k (some v)) := by
  unfold put!; rw [run, if_neg (by simp only [not_or]; exact ⟨h, by omega⟩)]; rfl

theorem run_put!_err {b : Bkt} {k v : Str} {db : Db} (h : k = [] ∨ k.length > maxKeySize) :
    (put! b k v).run db = .err .other := by unfold put!; rw [run, if_pos h]

@[simp] theorem run_put!_id (b : Bkt) (n : Nat) (v : Str) (db : Db) :
    (put! b (idToBytes n) v).run db = .ok ((), db.set b (idToBytes n) (some v)) :=
  run_put! (idToBytes_ne_nil n) (by rw [idToBytes_length]; decide)

theorem run_nextSeq! {db : Db} (h : db.seq + 1 < 2 ^ 64) :
    nextSeq!.run db = .ok (db.seq + 1, { db with seq := db.seq + 1 }) := by
  unfold nextSeq!
  simp only [run, Nat.mod_eq_of_lt h]

end Prog

@[simp] theorem Db.set_seq (db : Db) (b : Bkt) (k : Str) (v : Option Str) : (db.set b k v).seq = db.seq := rfl

theorem Db.set_tbl (db : Db) (b : Bkt) (k : Str) (v : Option Str) (b' : Bkt) (k' : Str) :
    (db.set b k v).tbl b' k' = if b' = b ∧ k' = k then v else db.tbl b' k' := rfl

end Idm
