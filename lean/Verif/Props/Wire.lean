import Verif.Proofs.Message
import Verif.Proofs.Codes
import Verif.Props.LdifPaging
import Verif.Spec.BoltServer
import Verif.Spec.Toy
/-!
# C76, C77: bytes

* C77: requests are read as the client sent them, however the bytes are split; a message that is not complete has no effect.
* C76: a client reads in the bytes of the responses what the server decided.
-/
namespace Idm

/-! ## C77: reading -/

/-- C77: a message in any BER encoding is read as sent, whatever follows it. (`other`: what the reader does for types that LDAP does not use.
Messages of 2 GiB and more are refused.) -/
theorem C77_read (other : Nat → Str → Option Val) {t : Tlv} {bs : Str} (h : BerOf t bs) (ht : LdapTypes t) (hl : bs.length < 2 ^ 31) (rest : Str) :
    readPacket other (bs ++ rest) = .ok (t.packet, rest) :=
  readPkt_ber other t bs h ht hl _ rest (by rw [List.length_append]; omega)

/-- C77: of a message that has not arrived completely, the server waits for the rest. -/
theorem C77_incomplete (other : Nat → Str → Option Val) {t : Tlv} {bs : Str} (h : BerOf t bs) (ht : LdapTypes t) (hl : bs.length < 2 ^ 31)
    {pre more : Str} (hp : bs = pre ++ more) (hm : more ≠ []) : readPacket other pre = .more :=
  readPkt_prefix other t bs h ht hl pre more hp hm _ (by omega)

/-- C77: what the server decides about any bytes does not depend on when the following bytes arrive: a packet that is complete, and an error,
stay what they are, whatever bytes come after. -/
theorem C77_chunks (other : Nat → Str → Option Val) (s x : Str) :
    (∀ p r, readPacket other s = .ok (p, r) → readPacket other (s ++ x) = .ok (p, r ++ x)) ∧
    (readPacket other s = .bad → readPacket other (s ++ x) = .bad) := by
  have h := readPacket_agree other s x
  constructor
  · intro p r e
    rw [e] at h
    exact h.2
  · intro e
    rw [e] at h
    exact h

theorem request_types {r : Request} (hf : r.Fits) : LdapTypes r.tlv := by
  cases r with
  | bind dn pw => exact tBind_types _ _
  | write w =>
    cases w with
    | add dn as => exact tAdd_types _
    | delete dn => exact tDelete_types _
    | modify dn cs => exact tModify_types _
    | rename dn rdn del => exact tModifyDN_types _
  | search base scope size f attrs => exact tSearch_types _ _ hf.2.1 (tFilter_types f) _
  | password body => exact tPwModify_types _

theorem request_packet {r : Request} (hf : r.Fits) : r.IsPacket r.tlv.packet := by
  cases r with
  | bind dn pw => exact tBind_packet _ _
  | write w =>
    cases w with
    | add dn as => exact tAdd_packet _
    | delete dn => exact tDelete_packet _
    | modify dn cs => exact tModify_packet hf
    | rename dn rdn del => exact tModifyDN_packet _
  | search base scope size f attrs => exact ⟨_, tFilter_wire f hf.2.2, tSearch_packet _ hf.1 hf.2.1 _ _⟩
  | password body => exact tPwModify_packet _

/-- C77: requests, in any BER encoding, are read as the packets that the theorems about the server (C14 to C72) speak of. -/
theorem C77_requests (other : Nat → Str → Option Val) {id : Int} (hid : Int64 id) {r : Request} (hf : r.Fits) {bs : Str}
    (h : BerOf (tMsg id r.tlv) bs) (hl : bs.length < 2 ^ 31) (rest : Str) :
    ∃ p, r.IsPacket p ∧ readPacket other (bs ++ rest) = .ok (wMsg id p, rest) := by
  refine ⟨_, request_packet hf, ?_⟩
  rw [C77_read other h (tMsg_types hid (request_types hf)) hl, tMsg_packet hid]

/-- C77: the same with controls. -/
theorem C77_requests_controls (other : Nat → Str → Option Val) {id : Int} (hid : Int64 id) {r : Request} (hf : r.Fits) {cs : List Tlv}
    (hc : ∀ c ∈ cs, LdapTypes c) {bs : Str} (h : BerOf (tMsgC id r.tlv cs) bs) (hl : bs.length < 2 ^ 31) (rest : Str) :
    ∃ p, r.IsPacket p ∧ readPacket other (bs ++ rest) = .ok (wMsgC id p (cs.map Tlv.packet), rest) := by
  refine ⟨_, request_packet hf, ?_⟩
  rw [C77_read other h (tMsgC_types hid (request_types hf) hc) hl, tMsgC_packet hid]

/-- C77: the paging control of RFC 2696, in any encoding, is read as what it says: page size and cookie. Bytes after the value are
ignored. -/
theorem C77_paging (other : Nat → Str → Option Val) (rest : Str → Option Packet → Res Control) {n : Nat} (hn : n < 2 ^ 32) {k v : Str}
    (h : BerOf (tPagingValue n k) v) (hl : v.length < 2 ^ 31) (critical : Option Bool) (more : Str) :
    decodeControl other rest (tPaging critical (v ++ more)).packet = .ok (.paging n k) := by
  have hi : Int64 (n : Int) := by unfold Int64; omega
  have hv : pagingValue (tPagingValue n k).packet = .ok (.paging n k) := by
    have e : (tPagingValue n k).packet.kids = [berInt n, octet k] := by
      rw [tPagingValue, tSeq_packet]
      simp only [packets, tInt_packet hi, tOct_packet]
      rfl
    rw [pagingValue, e]
    simp only [berInt, octet, Packet.val, Packet.data]
    congr 2
    omega
  have hr := C77_read other h ⟨tInt_types hi, tOct_types _, trivial⟩ hl more
  have hc : controlValue other rest pagingOID (some (octet (v ++ more))) = .ok (.paging n k) := by
    simp only [controlValue, if_true, octet, Packet.val, Packet.data, hr, hv]
  cases critical with
  | none =>
    rw [tPaging, tSeq_packet]
    simp only [Option.toList_none, List.map_nil, List.append_nil, List.cons_append, List.nil_append, packets, tOct_packet]
    exact hc
  | some b =>
    rw [tPaging, tSeq_packet]
    simp only [Option.toList_some, List.map_cons, List.map_nil, List.cons_append, List.nil_append, packets, tOct_packet, tBool_packet]
    exact hc

/-- C77: any other control, with or without criticality and value, and a paging control without a value, are decoded by their type and value
and by nothing else (`rest` is the part of the library that decodes them). -/
theorem C77_other_controls (other : Nat → Str → Option Val) (rest : Str → Option Packet → Res Control) (oid : Str) (critical : Option Bool)
    (value : Option Str) (h : oid ≠ b!"1.2.840.113556.1.4.319" ∨ value = none) :
    decodeControl other rest (tControlOf oid critical value).packet = rest oid (value.map octet) := by
  have hc : ∀ v, (oid ≠ pagingOID ∨ v = none) → controlValue other rest oid v = rest oid v := by
    intro v hv
    unfold controlValue
    split
    · rcases hv with hv | hv
      · exact absurd ‹_› hv
      · subst hv; subst ‹oid = _›; rfl
    · rfl
  rw [tControlOf, tSeq_packet]
  cases critical <;> cases value <;>
    simp only [Option.toList_none, Option.toList_some, List.map_nil, List.map_cons, List.append_nil, List.cons_append, List.nil_append, packets,
      tOct_packet, tBool_packet, Option.map_none, Option.map_some]
  · exact hc _ (.inr rfl)
  · exact hc _ (h.imp_right nofun)
  · exact hc _ (.inr rfl)
  · exact hc _ (h.imp_right nofun)

theorem lengthBytes_short {n : Nat} (h : n < 2 ^ 64) : (lengthBytes n).length ≤ 9 := by
  rcases lengthBytes_octets h with ⟨-, e⟩ | ⟨ds, -, h2, -, e⟩
  · rw [e]; simp
  · rw [e, List.length_cons]; omega

theorem prim_length {c : Cls} {t : Nat} {v : Str} (ht : t < 31) (hv : v.length < 2 ^ 64) : (Tlv.prim c t v).bytes.length ≤ v.length + 10 := by
  rw [Tlv.bytes, identBytes_octet ht]
  have := lengthBytes_short hv
  simp only [List.length_append, List.length_cons, List.length_nil]
  omega

/-- C77: a client that asks for pages of `n` entries has encodings of its paging controls that meet the assumption of C41 and C42 about
them, as long as cookies are shorter than 1 GiB. -/
theorem C77_pages (C : CaseEnv) (K : CryptoEnv) (other : Nat → Str → Option Val) (rest : Str → Option Packet → Res Control) {n : Nat}
    (hn : n < 2 ^ 32) (critical : Option Bool) (st0 : LdifSt) (hc : ∀ i, (st0.cookie i).length < 2 ^ 30) :
    ∃ v : Str → Str, ∀ k, (k = [] ∨ ∃ i, k = st0.cookie i) →
      BerOf (tPagingValue n k) (v k) ∧ (wireEnv C K other rest).control (tPaging critical (v k)).packet = .ok (.paging n k) := by
  refine ⟨fun k => (tPagingValue n k).bytes, ?_⟩
  intro k hk
  have hl : k.length < 2 ^ 30 := by
    rcases hk with rfl | ⟨i, rfl⟩
    · decide
    · exact hc i
  have hi : (intBytes (n : Int)).length ≤ 8 := (intBytes_spec (i := (n : Int)) (by omega) (by omega)).2.2
  have h1 : (tInt (n : Int)).bytes.length ≤ (intBytes (n : Int)).length + 10 := prim_length (by decide) (by omega)
  have h2 : (tOct k).bytes.length ≤ k.length + 10 := prim_length (by decide) (by omega)
  have h3 : (tPagingValue n k).bytes.length ≤ (tInt (n : Int)).bytes.length + (tOct k).bytes.length + 10 := by
    have hb : (tlvsBytes [tInt (n : Int), tOct k]).length = (tInt (n : Int)).bytes.length + (tOct k).bytes.length := by
      simp only [tlvsBytes, List.length_append, List.length_nil, Nat.add_zero]
    rw [tPagingValue, tSeq, Tlv.bytes, identBytes_octet (by decide)]
    have := lengthBytes_short (n := (tlvsBytes [tInt (n : Int), tOct k]).length) (by omega)
    simp only [List.length_append, List.length_cons, List.length_nil]
    omega
  have hb := berOf_bytes (tPagingValue n k) ⟨(by decide : 16 < 31), tInt_tags _, tOct_tags _, trivial⟩ (by omega)
  exact ⟨hb, by
    have := C77_paging other rest hn hb (by omega) critical []
    rw [List.append_nil] at this
    exact this⟩

/-- C77: the value of a password change (RFC 3062), in any encoding, is read as what it says. Bytes after it are ignored. -/
theorem C77_password (C : CaseEnv) (K : CryptoEnv) (other : Nat → Str → Option Val) (rest : Str → Option Packet → Res Control)
    (user old new : Option Str) {body : Str} (h : BerOf (tPwBody user old new) body) (hl : body.length < 2 ^ 31) (more : Str) :
    PwBody (wireEnv C K other rest) (body ++ more) user old new := by
  have ht : LdapTypes (tPwBody user old new) := con_types fun k hk => by
    simp only [List.mem_append, List.mem_map] at hk
    rcases hk with (⟨_, -, rfl⟩ | ⟨_, -, rfl⟩) | ⟨_, -, rfl⟩ <;> exact tCtx_types _ _
  have hr := C77_read other h ht hl more
  refine ⟨(tPwBody user old new).packet, ?_, ?_⟩
  · show decodePacket other (body ++ more) = _
    rw [decodePacket, hr]
  · rw [tPwBody, tSeq_packet]
    show packets _ = _
    rw [packets_eq_map]
    simp only [List.map_append, List.map_map]
    congr 2 <;> (try congr 1) <;> (congr 1; funext s; exact tCtx_packet _ _)

/-! ## C77: connections -/

theorem serveBytes_closed {σ : Type} (other : Nat → Str → Option Val) (V : Env) (srv : Srv σ) (n : Nat) (bound : Str) (st : σ)
    (oracle : Nat → Oracle) (s : Str) (h : ∀ p r, readPacket other s ≠ .ok (p, r)) :
    serveBytes other V srv n bound st oracle s = ⟨[], .closed, srv.close bound st⟩ := by
  cases n with
  | zero => rfl
  | succ n =>
    rw [serveBytes]
    cases hr : readPacket other s with
    | ok x => exact absurd hr (h x.1 x.2)
    | more => rfl
    | bad => rfl

theorem hangUp_cons {σ : Type} (V : Env) (srv : Srv σ) (p : Packet) (o : Oracle) (ps : List (Packet × Oracle)) (bound b : Str) (st : σ)
    (h : (handlePacket V srv o p bound st).next = .go b) :
    hangUp srv (serveFrom V srv bound st ((p, o) :: ps)) =
      let r := hangUp srv (serveFrom V srv b (handlePacket V srv o p bound st).st ps)
      ⟨(p, (handlePacket V srv o p bound st).resps) :: r.log, r.next, r.st⟩ := by
  rw [serveFrom]
  simp only [h]
  unfold hangUp
  dsimp only
  generalize serveFrom V srv b (handlePacket V srv o p bound st).st ps = x
  obtain ⟨l, nx, s⟩ := x
  cases nx <;> rfl

/-- C77: a client sends messages, in any BER encoding, and then closes the connection, perhaps in the middle of a message or after something
that is not BER. What happens, the answers and the state of the server, is what the theorems about connections say of the packets of the complete
messages: nothing is lost, nothing is read twice, and the incomplete message has no effect. -/
theorem C77_connection {σ : Type} (other : Nat → Str → Option Val) (V : Env) (srv : Srv σ) (msgs : List (Tlv × Str))
    (hm : ∀ m ∈ msgs, BerOf m.1 m.2 ∧ LdapTypes m.1 ∧ m.2.length < 2 ^ 31) (tail : Str)
    (ht : tail = [] ∨ readPacket other tail = .bad ∨ ∃ t more, BerOf t (tail ++ more) ∧ LdapTypes t ∧ (tail ++ more).length < 2 ^ 31 ∧ more ≠ [])
    (bound : Str) (st : σ) (oracle : Nat → Oracle) (n : Nat) (hn : msgs.length < n) :
    serveBytes other V srv n bound st oracle (msgs.flatMap (·.2) ++ tail) =
      hangUp srv (serveFrom V srv bound st (withOracles oracle (msgs.map (·.1.packet)))) := by
  induction msgs generalizing bound st oracle n with
  | nil =>
    rw [List.flatMap_nil, List.nil_append, serveBytes_closed]
    · rfl
    · intro p r e
      rcases ht with rfl | h | ⟨t, more, h1, h2, h3, h4⟩
      · simp [readPacket, readPkt, readIdent] at e
      · rw [h] at e; cases e
      · rw [C77_incomplete other h1 h2 h3 rfl h4] at e; cases e
  | cons m ms ih =>
    obtain ⟨h1, h2, h3⟩ := hm m (List.mem_cons_self ..)
    obtain ⟨n, rfl⟩ : ∃ k, n = k + 1 := ⟨n - 1, by omega⟩
    rw [List.flatMap_cons, List.append_assoc, serveBytes, C77_read other h1 h2 h3]
    dsimp only
    rw [List.map_cons, withOracles]
    cases hx : (handlePacket V srv (oracle 0) m.1.packet bound st).next with
    | go b =>
      dsimp only
      rw [hangUp_cons V srv _ _ _ _ b _ hx, ih (fun x hx => hm x (List.mem_cons_of_mem _ hx)) _ _ _ _ (by simp at hn; omega)]
    | closed => simp [serveFrom, hx, hangUp]
    | crash => simp [serveFrom, hx, hangUp]
    | hang => simp [serveFrom, hx, hangUp]

/-! ### Any bytes -/

theorem sint_int64 {s : Str} (h : s.length ≤ 8) : Int64 (sint s) := by
  have hb := beVal_lt s
  have h256 : (256 : Nat) ^ s.length = 2 ^ (8 * s.length) := by rw [show 256 = 2 ^ 8 by rfl, ← Nat.pow_mul]
  rw [h256] at hb
  unfold sint Int64
  by_cases h0 : s.length = 0
  · have : s = [] := List.length_eq_zero_iff.1 h0
    subst this
    decide
  have hp : (2 : Nat) ^ (8 * s.length) = 2 * 2 ^ (8 * s.length - 1) := by
    rw [← Nat.pow_succ']
    congr 1
    omega
  have hq : (2 : Nat) ^ (8 * s.length - 1) ≤ 2 ^ 63 := Nat.pow_le_pow_right (by decide) (by omega)
  have hz : ((2 : Int) ^ (8 * s.length)) = ((2 ^ (8 * s.length) : Nat) : Int) := by simp
  split
  · omega
  · rw [hz, hp]
    omega

theorem parseBerInt_int64 (s : Str) : Int64 (parseBerInt s) := by
  by_cases h : s.length ≤ 8
  · rw [parseBerInt_sint h]
    exact sint_int64 h
  · rw [parseBerInt, if_pos (by omega)]
    unfold Int64
    decide

/-- The numbers in a packet and its parts are `int64`. -/
def NumsOk (p : Packet) : Prop := (∀ i, p.val = .int i → Int64 i) ∧ ∀ k ∈ p.kids, ∀ i, k.val = .int i → Int64 i

theorem readPrim_nums {other : Nat → Str → Option Val} (ho : ∀ t s i, other t s = some (.int i) → Int64 i) {c : Cls} {t n : Nat} {s r : Str}
    {p : Packet} (h : readPrim other c t n s = .ok (p, r)) : NumsOk p := by
  unfold readPrim at h
  by_cases h1 : n > maxPacketLength
  · rw [if_pos h1] at h; cases h
  rw [if_neg h1] at h
  by_cases h2 : s.length < n
  · rw [if_pos h2] at h; cases h
  rw [if_neg h2] at h
  by_cases h3 : c = .universal
  · rw [if_pos h3] at h
    cases hv : readVal other t (s.take n) with
    | none => rw [hv] at h; cases h
    | some v =>
      rw [hv] at h
      cases h
      refine ⟨fun i hi => ?_, fun k hk => by cases hk⟩
      have hi : v = .int i := hi
      subst hi
      unfold readVal at hv
      by_cases e1 : t = tagBoolean
      · rw [if_pos e1] at hv; cases hv
      rw [if_neg e1] at hv
      by_cases e2 : t = tagInteger ∨ t = tagEnumerated
      · rw [if_pos e2] at hv
        cases hv
        exact parseBerInt_int64 _
      rw [if_neg e2] at hv
      by_cases e3 : t = tagOctetString
      · rw [if_pos e3] at hv; cases hv
      rw [if_neg e3] at hv
      exact ho _ _ _ hv
  · rw [if_neg h3] at h
    cases h
    exact ⟨fun i hi => (by cases hi), fun k hk => by cases hk⟩

theorem readPkt_nums {other : Nat → Str → Option Val} (ho : ∀ t s i, other t s = some (.int i) → Int64 i) (f : Nat) :
    (∀ s p r, readPkt other f s = .ok (p, r) → NumsOk p) ∧
    (∀ l s ks r, readKids other f l s = .ok (ks, r) → ∀ k ∈ ks, NumsOk k) := by
  induction f with
  | zero => exact ⟨fun s p r h => (by cases h), fun l s ks r h => (by cases h)⟩
  | succ f ih =>
    constructor
    · intro s p r h
      rw [readPkt] at h
      cases hi : readIdent s with
      | more => rw [hi] at h; cases h
      | bad => rw [hi] at h; cases h
      | ok x =>
        obtain ⟨⟨c, k, t⟩, s1⟩ := x
        rw [hi] at h
        dsimp only at h
        cases hl : readLen s1 with
        | more => rw [hl] at h; cases h
        | bad => rw [hl] at h; cases h
        | ok y =>
          obtain ⟨len, s2⟩ := y
          rw [hl] at h
          dsimp only at h
          cases k with
          | true =>
            rw [if_pos rfl] at h
            cases hk : readKids other f len s2 with
            | more => rw [hk] at h; cases h
            | bad => rw [hk] at h; cases h
            | ok z =>
              obtain ⟨kids, s3⟩ := z
              rw [hk] at h
              cases h
              exact ⟨fun i hi => (by cases hi), fun k hkm => (ih.2 _ _ _ _ hk k hkm).1⟩
          | false =>
            rw [if_neg (by decide)] at h
            cases len with
            | none => cases h
            | some n => exact readPrim_nums ho h
    · intro l s ks r h
      rw [readKids] at h
      by_cases h0 : l = some 0
      · rw [if_pos h0] at h; cases h; intro k hk; cases hk
      rw [if_neg h0] at h
      cases hp : readPkt other f s with
      | more => rw [hp] at h; cases h
      | bad => rw [hp] at h; cases h
      | ok x =>
        obtain ⟨p, s'⟩ := x
        rw [hp] at h
        dsimp only at h
        by_cases h1 : isEOC p = true
        · rw [if_pos h1] at h
          cases l with
          | none => cases h; intro k hk; cases hk
          | some n => cases h
        rw [if_neg h1] at h
        by_cases h2 : l.any (· < s.length - s'.length) = true
        · rw [if_pos h2] at h; cases h
        rw [if_neg h2] at h
        cases hk : readKids other f (l.map (· - (s.length - s'.length))) s' with
        | more => rw [hk] at h; cases h
        | bad => rw [hk] at h; cases h
        | ok y =>
          obtain ⟨ps, s''⟩ := y
          rw [hk] at h
          cases h
          intro k hkm
          cases hkm with
          | head => exact ih.1 _ _ _ hp
          | tail _ hkm => exact ih.2 _ _ _ _ hk k hkm

/-- C77: whatever bytes a client sends, what happens is what the theorems about connections say of some packets, after which the client closes
the connection. -/
theorem C77_any_bytes {σ : Type} (other : Nat → Str → Option Val) (V : Env) (srv : Srv σ) (n : Nat) (bound : Str) (st : σ)
    (oracle : Nat → Oracle) (s : Str) :
    ∃ ps, serveBytes other V srv n bound st oracle s = hangUp srv (serveFrom V srv bound st (withOracles oracle ps)) := by
  induction n generalizing bound st oracle s with
  | zero => exact ⟨[], rfl⟩
  | succ n ih =>
    cases hr : readPacket other s with
    | more => exact ⟨[], serveBytes_closed _ _ _ _ _ _ _ _ (fun p r e => by rw [hr] at e; cases e)⟩
    | bad => exact ⟨[], serveBytes_closed _ _ _ _ _ _ _ _ (fun p r e => by rw [hr] at e; cases e)⟩
    | ok x =>
      obtain ⟨p, rest⟩ := x
      rw [serveBytes, hr]
      dsimp only
      cases hx : (handlePacket V srv (oracle 0) p bound st).next with
      | go b =>
        obtain ⟨ps, hps⟩ := ih b (handlePacket V srv (oracle 0) p bound st).st (fun i => oracle (i + 1)) rest
        refine ⟨p :: ps, ?_⟩
        dsimp only
        rw [withOracles, hangUp_cons V srv _ _ _ _ b _ hx, hps]
      | closed => exact ⟨[p], by simp [withOracles, serveFrom, hx, hangUp]⟩
      | crash => exact ⟨[p], by simp [withOracles, serveFrom, hx, hangUp]⟩
      | hang => exact ⟨[p], by simp [withOracles, serveFrom, hx, hangUp]⟩

/-! ## C76: responses -/

theorem serveBytes_sendable {σ : Type} {other : Nat → Str → Option Val} (ho : ∀ t s i, other t s = some (.int i) → Int64 i) (V : Env)
    {srv : Srv σ} (hs : CodesOk srv) (n : Nat) (bound : Str) (st : σ) (oracle : Nat → Oracle) (s : Str) :
    ∀ x ∈ (serveBytes other V srv n bound st oracle s).log, ∀ r ∈ x.2, Sendable r := by
  induction n generalizing bound st oracle s with
  | zero => intro x hx; cases hx
  | succ n ih =>
    rw [serveBytes]
    cases hr : readPacket other s with
    | more => intro x hx; cases hx
    | bad => intro x hx; cases hx
    | ok y =>
      obtain ⟨p, rest⟩ := y
      have hp := handlePacket_sendable V hs (oracle 0) p bound st ((readPkt_nums ho _).1 _ _ _ hr).2
      dsimp only
      cases hx : (handlePacket V srv (oracle 0) p bound st).next with
      | go b =>
        intro x hxm
        cases hxm with
        | head => exact hp
        | tail _ h => exact ih _ _ _ _ x h
      | closed => intro x hxm; rw [List.mem_singleton.1 hxm]; exact hp
      | crash => intro x hxm; rw [List.mem_singleton.1 hxm]; exact hp
      | hang => intro x hxm; rw [List.mem_singleton.1 hxm]; exact hp

/-- C76: whatever bytes clients of the BoltDB server send, the responses have the types of responses and result codes in `ReplyCode`, all less
than 256, so that the codes are sent unchanged. -/
theorem C76_codes_bolt {other : Nat → Str → Option Val} (ho : ∀ t s i, other t s = some (.int i) → Int64 i) (V : Env) (G : GobEnv) (cfg : BoltCfg)
    (genPwLen : Nat) (stats : Bool) (n : Nat) (bound : Str) (st : Db) (oracle : Nat → Oracle) (s : Str) :
    ∀ x ∈ (serveBytes other V (boltSrv V G cfg genPwLen stats) n bound st oracle s).log, ∀ r ∈ x.2, Sendable r :=
  serveBytes_sendable ho V (boltSrv_codes V G cfg genPwLen stats) n bound st oracle s

/-- C76: the same for the LDIF server. -/
theorem C76_codes_ldif {other : Nat → Str → Option Val} (ho : ∀ t s i, other t s = some (.int i) → Int64 i) (V : Env) (W : WalkOrd) (cfg : LdifCfg)
    (genPwLen : Nat) (stats : Bool) (n : Nat) (bound : Str) (st : LdifSt) (oracle : Nat → Oracle) (s : Str) :
    ∀ x ∈ (serveBytes other V (ldifSrv V W cfg genPwLen stats) n bound st oracle s).log, ∀ r ∈ x.2, Sendable r :=
  serveBytes_sendable ho V (ldifSrv_codes V W cfg genPwLen stats) n bound st oracle s

/-- C76: the bytes sent for a response are a BER encoding of a message that says what the response says, with any text of the result. -/
theorem C76_reply (m : Str) {r : Resp} (h : Sendable r) (hl : (respBytes m r).length < 2 ^ 64) :
    ∃ t, BerOf t (respBytes m r) ∧ IsReply t r := by
  rw [respBytes_eq] at hl ⊢
  exact ⟨_, berOf_bytes _ (resp_tags m h) hl, isReply_sent m h hl⟩

theorem berOf_head {t : Tlv} {bs : Str} (h : BerOf t bs) : bs ≠ [] := by
  cases h <;> simp

/-- C76: all responses on a connection, as one stream of bytes: the client finds exactly these messages in it, and what it reads in them is
what the server decided; no other responses could be read. -/
theorem C76_stream (rs : List (Str × Resp)) (h : ∀ x ∈ rs, Sendable x.2 ∧ (respBytes x.1 x.2).length < 2 ^ 64) :
    ∃ ts, BerOfAll ts (rs.flatMap fun x => respBytes x.1 x.2) ∧ AreReplies ts (rs.map (·.2)) ∧
      (∀ ts', BerOfAll ts' (rs.flatMap fun x => respBytes x.1 x.2) → ts' = ts) ∧
      ∀ rs', (∀ r ∈ rs', Sendable r) → AreReplies ts rs' → rs' = rs.map (·.2) := by
  have key : ∀ (ts : List Tlv) (as bs : List Resp), (∀ r ∈ as, Sendable r) → (∀ r ∈ bs, Sendable r) → AreReplies ts as → AreReplies ts bs → bs = as := by
    intro ts
    induction ts with
    | nil =>
      intro as bs _ _ h1 h2
      cases as with
      | nil => cases bs with
        | nil => rfl
        | cons => cases h2
      | cons => cases h1
    | cons t ts ih =>
      intro as bs ha hb h1 h2
      cases as with
      | nil => cases h1
      | cons a as => cases bs with
        | nil => cases h2
        | cons b bs =>
          rw [isReply_unique h2.1 h1.1 (hb _ (List.mem_cons_self ..)) (ha _ (List.mem_cons_self ..)),
            ih as bs (fun r hr => ha r (List.mem_cons_of_mem _ hr)) (fun r hr => hb r (List.mem_cons_of_mem _ hr)) h1.2 h2.2]
  have hex : ∃ ts, BerOfAll ts (rs.flatMap fun x => respBytes x.1 x.2) ∧ AreReplies ts (rs.map (·.2)) := by
    induction rs with
    | nil => exact ⟨[], .nil, trivial⟩
    | cons x rs ih =>
      obtain ⟨ts, h1, h2⟩ := ih fun y hy => h y (List.mem_cons_of_mem _ hy)
      obtain ⟨hx1, hx2⟩ := h x (List.mem_cons_self ..)
      obtain ⟨t, h3, h4⟩ := C76_reply x.1 hx1 hx2
      exact ⟨t :: ts, by rw [List.flatMap_cons]; exact .cons _ _ _ _ h3 h1, h4, h2⟩
  obtain ⟨ts, h1, h2⟩ := hex
  refine ⟨ts, h1, h2, fun ts' h' => berOfAll_unique ts' _ h' ts h1, fun rs' hr' h' => key ts _ _ (fun r hr => ?_) hr' h2 h'⟩
  obtain ⟨x, hx, rfl⟩ := List.mem_map.1 hr
  exact (h x hx).1

/-! ## Examples and counterexamples -/

/-- The toy environment with the reader of packets and controls. -/
def wireToy : Env := wireEnv asciiCase toyCrypto (fun _ _ => none) (fun t _ => .ok (.other t))

def wireSrv : Srv Db := boltSrv wireToy gobInstance toyCfg 8 false

/-- What the toy server does with bytes. -/
def toyBytes (s : Str) : ConnOut Db := serveBytes (fun _ _ => none) wireToy wireSrv (s.length + 1) [] toyDb (fun _ => toyOracle) s

/-- A bind request with message ID 7, with lengths in the long form. -/
def bindBytesLong : Str := [48, 130, 0, 30, 2, 1, 7, 96, 129, 24, 2, 1, 3, 4, 13] ++ b!"uid=ann,dc=lg" ++ [128, 130, 0, 2] ++ b!"pw"

theorem bindBytesLong_ber : BerOf (tMsg 7 (Request.bind b!"uid=ann,dc=lg" b!"pw").tlv) bindBytesLong := by
  have h1 : intBytes 7 = [7] := by decide +kernel
  have h2 : intBytes 3 = [3] := by decide +kernel
  have h3 : bindBytesLong = identOctet .universal true 16 :: ([130, 0, 30] ++ ((identOctet .universal false 2 :: ([1] ++ [7])) ++
    ((identOctet .application true 0 :: ([129, 24] ++ ((identOctet .universal false 2 :: ([1] ++ [3])) ++
      ((identOctet .universal false 4 :: ([13] ++ b!"uid=ann,dc=lg")) ++
      ((identOctet .context false 0 :: ([130, 0, 2] ++ b!"pw")) ++ []))))) ++ []))) := by decide +kernel
  simp only [Request.tlv, tMsg, tBind, tSeq, tReq, tInt, tOct, tCtx, h1, h2]
  rw [h3]
  exact .con _ _ _ _ _ (by decide)
    (.cons _ _ _ _ (.prim _ _ _ _ (by decide) (.inl ⟨by decide, rfl⟩)) (.cons _ _ _ _
      (.con _ _ _ _ _ (by decide)
        (.cons _ _ _ _ (.prim _ _ _ _ (by decide) (.inl ⟨by decide, rfl⟩))
        (.cons _ _ _ _ (.prim _ _ _ _ (by decide) (.inl ⟨by decide, rfl⟩))
        (.cons _ _ _ _ (.prim _ _ _ _ (by decide) (.inr ⟨[0, 2], by decide, by decide, by decide, rfl⟩)) .nil)))
        (.inr ⟨[24], by decide, by decide, by decide, rfl⟩)) .nil))
    (.inr ⟨[0, 30], by decide, by decide, by decide, rfl⟩)

/-- It is read as the bind request, and the server accepts it and goes on with what follows. -/
example (rest : Str) : ∃ p, (Request.bind b!"uid=ann,dc=lg" b!"pw").IsPacket p ∧
    readPacket (fun _ _ => none) (bindBytesLong ++ rest) = .ok (wMsg 7 p, rest) :=
  C77_requests _ (by unfold Int64; omega) (r := .bind _ _) trivial bindBytesLong_ber (by decide) rest
example : ((toyBytes bindBytesLong).log.map (·.2), (toyBytes bindBytesLong).next) = ([[.result 7 1 0]], .closed) := by decide +kernel

/-- Two messages, and a third one that breaks off. -/
example : serveBytes (fun _ _ => none) wireToy wireSrv 3 [] toyDb (fun _ => toyOracle) (bindBytesLong ++ (bindBytesLong ++ []) ++ [48, 130, 0]) =
    hangUp wireSrv (serveFrom wireToy wireSrv [] toyDb (withOracles (fun _ => toyOracle)
      [(tMsg 7 (Request.bind b!"uid=ann,dc=lg" b!"pw").tlv).packet, (tMsg 7 (Request.bind b!"uid=ann,dc=lg" b!"pw").tlv).packet])) :=
  have h : BerOf _ bindBytesLong ∧ LdapTypes (tMsg 7 (Request.bind b!"uid=ann,dc=lg" b!"pw").tlv) ∧ bindBytesLong.length < 2 ^ 31 := ⟨bindBytesLong_ber, tMsg_types (by unfold Int64; omega) (request_types (r := .bind b!"uid=ann,dc=lg" b!"pw") trivial), by decide⟩
  C77_connection _ wireToy wireSrv
    [(tMsg 7 (Request.bind b!"uid=ann,dc=lg" b!"pw").tlv, bindBytesLong), (tMsg 7 (Request.bind b!"uid=ann,dc=lg" b!"pw").tlv, bindBytesLong)]
    (by intro m hm; simp only [List.mem_cons, List.not_mem_nil, or_false, or_self] at hm; subst hm; exact h) [48, 130, 0]
    (.inr (.inr ⟨_, bindBytesLong.drop 3, h.1, h.2.1, h.2.2, by decide⟩)) [] toyDb _ 3 (by decide)

/-- The paging control and the password change. -/
example : decodeControl (fun _ _ => none) (fun t _ => .ok (.other t)) (tPaging (some true) ((tPagingValue 9 b!"c").bytes ++ b!"more")).packet = .ok (.paging 9 b!"c") :=
  C77_paging _ _ (by decide) (berOf_bytes _ ⟨(by decide : 16 < 31), tInt_tags _, tOct_tags _, trivial⟩ (by decide +kernel)) (by decide +kernel) _ b!"more"
example : decodeControl (fun _ _ => none) (fun t _ => .ok (.other t)) (tControlOf b!"1.2.3" (some false) (some b!"x")).packet = .ok (.other b!"1.2.3") :=
  C77_other_controls _ _ _ _ _ (.inl (by decide))
example : PwBody wireToy ([48, 5, 130, 3] ++ b!"new" ++ b!"x") none none (some b!"new") :=
  have e : [48, 5, 130, 3] ++ b!"new" = (tPwBody none none (some b!"new")).bytes := by decide +kernel
  e ▸ C77_password _ _ _ _ none none (some b!"new") (berOf_bytes _ ⟨(by decide : 16 < 31), (by decide : 2 < 31), trivial⟩ (by decide +kernel)) (by decide +kernel) b!"x"

/-- What is sent for a result and for an entry. -/
example : respBytes b!"x" (.result 7 9 68) = [48, 13, 2, 1, 7, 105, 8, 10, 1, 68, 4, 0, 4, 1] ++ b!"x" := by decide +kernel
example : ∃ t, BerOf t (respBytes b!"x" (.result 7 9 68)) ∧ IsReply t (.result 7 9 68) :=
  C76_reply _ ⟨by unfold Int64; omega, by decide, by decide⟩ (by decide +kernel)
example : ∃ t, BerOf t (respBytes [] (.entry 300 ⟨b!"dc=lg", [⟨b!"dc", [b!"lg", b!"LG"]⟩]⟩)) ∧ IsReply t (.entry 300 ⟨b!"dc=lg", [⟨b!"dc", [b!"lg", b!"LG"]⟩]⟩) :=
  C76_reply _ (by unfold Sendable Int64; omega) (by decide +kernel)
example : respBytes [] (.entry 300 ⟨b!"dc=lg", [⟨b!"dc", [b!"lg", b!"LG"]⟩]⟩) =
    [48, 31, 2, 2, 1, 44, 100, 25, 4, 5] ++ b!"dc=lg" ++ [48, 16, 48, 14, 4, 2] ++ b!"dc" ++ [49, 8, 4, 2] ++ b!"lg" ++ [4, 2] ++ b!"LG" := by
  decide +kernel

/-- C76 fails for compare requests: they are answered, before the connection is closed, by a message of the type of a compare request (14),
not of a compare response (15). -/
theorem C76_compare_fails : (toyReq [] (wReq 14 [octet b!"dc=lg", wSeq [octet b!"dc", octet b!"lg"]])).resps = [.result 7 14 1] ∧
    respBytes [] (.result 7 14 1) = [48, 12, 2, 1, 7, 110, 7, 10, 1, 1, 4, 0, 4, 0] := by decide +kernel

/-- C76 fails for malformed changes: they are answered with the code 84, which RFC 4511 does not define. -/
theorem C76_undefined_code_fails : (toyReq b!"uid=ann,dc=lg" (wModify ⟨b!"uid=ann,dc=lg", [⟨3, b!"mail", [b!"1"]⟩]⟩)).resps = [.result 7 7 84] := by
  decide +kernel

/-- C27 fails on bytes: 24 bytes from a client that has not bound crash the server. The type of the control is not a string, and the server
does not check. -/
theorem C27_control_fails : (toyBytes [48, 22, 2, 1, 1, 66, 0, 160, 15, 48, 13, 2, 1, 0, 4, 8, 48, 6, 2, 1, 0, 4, 1, 120]).next = .crash := by decide +kernel

end Idm
