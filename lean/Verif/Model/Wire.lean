import Verif.Model.Server
/-!
# Bytes on the connection

* go-asn1-ber `ReadPacket` (dependency, modelled as published)
* the functions of `/repo/pkg/ldapserver` that build responses
* `handleConnection` on the bytes received

The texts of the result message are not modelled elsewhere; here they are an arbitrary parameter.
-/
namespace Idm

/-! ## go-asn1-ber: ReadPacket -/

/-- Result of reading: a value, the input ended before it was complete (the reader waits for more; if the client closes the connection it
gets `io.EOF` or `io.ErrUnexpectedEOF`), or the input is malformed. -/
inductive Rd (α : Type) where
  | ok (a : α)
  | more
  | bad
  deriving DecidableEq, Repr

/-- The class of an identifier octet, `ClassBitmask`. -/
def clsOf (b : UInt8) : Cls :=
  if b < 64 then .universal else if b < 128 then .application else if b < 192 then .context else .priv

/-- The loop of `readIdentifier` for high tag numbers; `n` counts the bytes before. -/
def readHigh : (n tag : Nat) → Str → Rd (Nat × Str)
  | _, _, [] => .more
  | n, tag, b :: rest =>
    let tag := (tag * 128 + b.toNat % 128) % 2 ^ 64
    if n = 0 ∧ tag = 0 then .bad
    else if n + 1 > 9 then .bad
    else if b < 128 then .ok (tag, rest)
    else readHigh (n + 1) tag rest

/-- `readIdentifier`: class, whether constructed, tag. -/
def readIdent : Str → Rd ((Cls × Bool × Nat) × Str)
  | [] => .more
  | b :: rest =>
    if b.toNat % 32 ≠ 31 then .ok ((clsOf b, b.toNat / 32 % 2 = 1, b.toNat % 32), rest)
    else match readHigh 0 0 rest with
      | .ok (tag, rest) => .ok ((clsOf b, b.toNat / 32 % 2 = 1, tag), rest)
      | .more => .more
      | .bad => .bad

/-- The loop of `readLength` over `n` bytes. -/
def readLenBytes : (n acc : Nat) → Str → Rd (Nat × Str)
  | 0, acc, s => .ok (acc, s)
  | _ + 1, _, [] => .more
  | n + 1, acc, b :: rest => readLenBytes n ((acc * 256 + b.toNat) % 2 ^ 64) rest

/-- `readLength` and the check of the length in `readHeader`; `none` is the indefinite form. The length is an `int64`: eight bytes of 0xff
mean -1, which stands for the indefinite form; other negative numbers are refused. -/
def readLen : Str → Rd (Option Nat × Str)
  | [] => .more
  | b :: rest =>
    if b = 255 then .bad
    else if b = 128 then .ok (none, rest)
    else if b < 128 then .ok (some b.toNat, rest)
    else if b.toNat - 128 > 8 then .bad
    else match readLenBytes (b.toNat - 128) 0 rest with
      | .ok (n, rest) => if n = 2 ^ 64 - 1 then .ok (none, rest) else if n ≥ 2 ^ 63 then .bad else .ok (some n, rest)
      | .more => .more
      | .bad => .bad

/-- `ParseInt64`, with 0 for its error: two's complement of up to eight bytes. -/
def parseBerInt (s : Str) : Int :=
  if s.length > 8 then 0
  else
    let n : Nat := s.foldl (fun n b => n * 256 + b.toNat) 0
    if n < 2 ^ (8 * s.length - 1) then (n : Int) else (n : Int) - 2 ^ (8 * s.length)

/-- The value of a universal primitive. `other` stands for the types that LDAP does not use; `none` is an error. -/
def readVal (other : Nat → Str → Option Val) (t : Nat) (content : Str) : Option Val :=
  if t = tagBoolean then some (.bool (parseBerInt content ≠ 0))
  else if t = tagInteger ∨ t = tagEnumerated then some (.int (parseBerInt content))
  else if t = tagOctetString then some (.str content)
  else other t content

/-- `isEOCPacket`. -/
def isEOC (p : Packet) : Bool := p.cls = .universal && !p.cons && p.tag = 0 && p.data = [] && p.kids.isEmpty

/-- `MaxPacketLengthBytes`. -/
def maxPacketLength : Nat := 2 ^ 31 - 1

/-- The primitive case of `readPacket`. -/
def readPrim (other : Nat → Str → Option Val) (c : Cls) (t n : Nat) (s : Str) : Rd (Packet × Str) :=
  if n > maxPacketLength then .bad
  else if s.length < n then .more
  else if c = .universal then
    match readVal other t (s.take n) with
    | none => .bad
    | some v => .ok (.mk c false t v (s.take n) [], s.drop n)
  else .ok (.mk c false t .nil (s.take n) [], s.drop n)

mutual
/-- `readPacket`. The first argument bounds the recursion; more than the number of bytes suffices. `AppendChild` appends the encoding of
the child to the data of the parent. -/
def readPkt (other : Nat → Str → Option Val) : Nat → Str → Rd (Packet × Str)
  | 0, _ => .bad
  | f + 1, s => match readIdent s with
    | .more => .more
    | .bad => .bad
    | .ok ((c, k, t), s1) => match readLen s1 with
      | .more => .more
      | .bad => .bad
      | .ok (len, s2) =>
        if k then
          match readKids other f len s2 with
          | .ok (kids, s3) => .ok (.mk c true t .nil (kids.flatMap berBytes) kids, s3)
          | .more => .more
          | .bad => .bad
        else match len with
          | none => .bad
          | some n => readPrim other c t n s2
/-- The loop of `readPacket` over the content of a constructed packet; the second argument is the number of bytes left, `none` for the
indefinite form. -/
def readKids (other : Nat → Str → Option Val) : Nat → Option Nat → Str → Rd (List Packet × Str)
  | 0, _, _ => .bad
  | f + 1, left, s =>
    if left = some 0 then .ok ([], s)
    else match readPkt other f s with
      | .more => .more
      | .bad => .bad
      | .ok (p, s') =>
        if isEOC p then (match left with | none => .ok ([], s') | some _ => .bad)
        else if left.any (· < s.length - s'.length) then .bad
        else match readKids other f (left.map (· - (s.length - s'.length))) s' with
          | .ok (ps, s'') => .ok (p :: ps, s'')
          | .more => .more
          | .bad => .bad
end

/-- `ber.ReadPacket` on the bytes received so far. -/
def readPacket (other : Nat → Str → Option Val) (s : Str) : Rd (Packet × Str) := readPkt other (s.length + 1) s

/-! ## What the front end takes from its dependencies, on bytes -/

/-- `ldap.ControlTypePaging`. -/
def pagingOID : Str := b!"1.2.840.113556.1.4.319"

/-- The value of the paging control in go-ldap `DecodeControl`; the size is converted to `uint32`. The accesses to the children and the type
assertion are unchecked. -/
def pagingValue (q : Packet) : Res Control :=
  match q.kids with
  | a :: b :: _ => match a.val with
    | .int i => .ok (.paging (i % 2 ^ 32).toNat b.data)
    | _ => .panic
  | _ => .panic

/-- The second half of go-ldap `DecodeControl`. `rest` stands for the other types of controls, and for a
paging control without value. -/
def controlValue (other : Nat → Str → Option Val) (rest : Str → Option Packet → Res Control) (t : Str) (value : Option Packet) : Res Control :=
  if t = pagingOID then
    match value with
    | none => rest t none
    | some v => match v.val with
      | .nil => match v.kids with
        | [] => .panic
        | q :: _ => pagingValue q
      | _ => match readPacket other v.data with
        | .ok (q, _) => pagingValue q
        | _ => .err .other
  else rest t value

/-- go-ldap `DecodeControl`: the type is taken with an unchecked type assertion, and so is the criticality if there are three parts. -/
def decodeControl (other : Nat → Str → Option Val) (rest : Str → Option Packet → Res Control) (p : Packet) : Res Control :=
  match p.kids with
  | [a] => match a.val with
    | .str t => controlValue other rest t none
    | _ => .panic
  | [a, b] => match a.val with
    | .str t => match b.val with
      | .bool _ => controlValue other rest t none
      | _ => controlValue other rest t (some b)
    | _ => .panic
  | [a, b, c] => match a.val, b.val with
    | .str t, .bool _ => controlValue other rest t (some c)
    | _, _ => .panic
  | _ => .err .other

/-- `ber.DecodePacket`: nil for malformed or incomplete bytes; bytes after the packet are ignored. -/
def decodePacket (other : Nat → Str → Option Val) (s : Str) : Option Packet :=
  match readPacket other s with
  | .ok (p, _) => some p
  | _ => none

/-- The environment of the front end with these functions. -/
def wireEnv (C : CaseEnv) (K : CryptoEnv) (other : Nat → Str → Option Val) (rest : Str → Option Packet → Res Control) : Env :=
  ⟨C, K, decodeControl other rest, decodePacket other⟩

/-! ## Responses -/

/-- `ber.Encode` without value. -/
def berEncode (c : Cls) (cons : Bool) (t : Nat) : Packet := .mk c cons t .nil [] []

/-- `ber.NewString`. -/
def berString (c : Cls) (t : Nat) (s : Str) : Packet := .mk c false t (.str s) s []

/-- `ber.NewInteger`. -/
def berInteger (t : Nat) (i : Int) : Packet := .mk .universal false t (.int i) (intBytes i) []

/-- `Packet.AppendChild`. -/
def Packet.append : Packet → Packet → Packet
  | .mk c k t v d ks, p => .mk c k t v (d ++ berBytes p) (ks ++ [p])

/-- The result code as sent: `LDAPResultCode` is a `uint8` (ldap.go:8). -/
def sentCode (code : Nat) : Int := (code % 256 : Nat)

/-- `encodeLDAPResponse`, server.go:466-475. -/
def encodeLDAPResponse (id : Int) (tag code : Nat) (message : Str) : Packet :=
  let responsePacket := berEncode .universal true tagSequence
  let responsePacket := responsePacket.append (berInteger tagInteger id)
  let response := berEncode .application true tag
  let response := response.append (berInteger tagEnumerated (sentCode code))
  let response := response.append (berString .universal tagOctetString [])
  let response := response.append (berString .universal tagOctetString message)
  responsePacket.append response

/-- `encodeBindResponse`, bind.go:66-79. -/
def encodeBindResponse (id : Int) (code : Nat) : Packet :=
  let responsePacket := berEncode .universal true tagSequence
  let responsePacket := responsePacket.append (berInteger tagInteger id)
  let bindResponse := berEncode .application true appBindResponse
  let bindResponse := bindResponse.append (berInteger tagEnumerated (sentCode code))
  let bindResponse := bindResponse.append (berString .universal tagOctetString [])
  let bindResponse := bindResponse.append (berString .universal tagOctetString [])
  responsePacket.append bindResponse

/-- `encodeSearchAttribute`, search.go:193-205. -/
def encodeSearchAttribute (a : Attr) : Packet :=
  let packet := berEncode .universal true tagSequence
  let packet := packet.append (berString .universal tagOctetString a.name)
  let valuesPacket := a.vals.foldl (fun p v => p.append (berString .universal tagOctetString v)) (berEncode .universal true tagSet)
  packet.append valuesPacket

/-- `encodeSearchResponse`, search.go:175-191. -/
def encodeSearchResponse (id : Int) (e : Entry) : Packet :=
  let responsePacket := berEncode .universal true tagSequence
  let responsePacket := responsePacket.append (berInteger tagInteger id)
  let searchEntry := berEncode .application true appSearchResultEntry
  let searchEntry := searchEntry.append (berString .universal tagOctetString e.dn)
  let attrs := e.attrs.foldl (fun p a => p.append (encodeSearchAttribute a)) (berEncode .universal true tagSequence)
  let searchEntry := searchEntry.append attrs
  responsePacket.append searchEntry

/-- go-ldap `Control.Encode`: the paging control; of other controls, which the server never sends, only the type. -/
def encodeControl : Control → Packet
  | .paging size cookie =>
    let packet := berEncode .universal true tagSequence
    let packet := packet.append (berString .universal tagOctetString pagingOID)
    let p2 := berEncode .universal false tagOctetString
    let seq := berEncode .universal true tagSequence
    let seq := seq.append (berInteger tagInteger (size : Int))
    let seq := seq.append (berString .universal tagOctetString cookie)
    packet.append (p2.append seq)
  | .other oid => (berEncode .universal true tagSequence).append (berString .universal tagOctetString oid)

/-- `encodeSearchDone`, search.go:207-225. -/
def encodeSearchDone (id : Int) (code : Nat) (controls : Option (List Control)) : Packet :=
  let responsePacket := berEncode .universal true tagSequence
  let responsePacket := responsePacket.append (berInteger tagInteger id)
  let donePacket := berEncode .application true appSearchResultDone
  let donePacket := donePacket.append (berInteger tagEnumerated (sentCode code))
  let donePacket := donePacket.append (berString .universal tagOctetString [])
  let donePacket := donePacket.append (berString .universal tagOctetString [])
  let responsePacket := responsePacket.append donePacket
  match controls with
  | none => responsePacket
  | some cs => responsePacket.append (cs.foldl (fun p c => p.append (encodeControl c)) (berEncode .context true 0))

/-- The response value with the generated password, pwmodifyexop.go:79-82. -/
def encodePwResponse (pw : Str) : Packet := (berEncode .universal true tagSequence).append (berString .context 0 pw)

/-- `encodeExtendedResponse`, extended.go:76-90, and the message around it, server.go:355-357. -/
def encodeExtendedResponse (id : Int) (code : Nat) (message oid : Str) (genPw : Option Str) : Packet :=
  let respBer := berEncode .application true appExtendedResponse
  let respBer := respBer.append (berInteger tagEnumerated (sentCode code))
  let respBer := respBer.append (berString .universal tagOctetString [])
  let respBer := respBer.append (berString .universal tagOctetString message)
  let respBer := respBer.append (berString .context 10 oid)
  let respBer := match genPw with
    | none => respBer
    | some pw => respBer.append ((berEncode .context false 11).append (encodePwResponse pw))
  ((berEncode .universal true tagSequence).append (berInteger tagInteger id)).append respBer

/-- The packet sent for a response, with the text of the result message: bind.go:66-79 for binds, server.go:466-475 for the other results. -/
def respPacket (message : Str) : Resp → Packet
  | .result id tag code => if tag = appBindResponse then encodeBindResponse id code else encodeLDAPResponse id tag code message
  | .entry id e => encodeSearchResponse id e
  | .searchDone id code controls => encodeSearchDone id code controls
  | .extended id code oid genPw => encodeExtendedResponse id code message oid genPw

/-- What `sendPacket` writes, server.go:441-448. -/
def respBytes (message : Str) (r : Resp) : Str := berBytes (respPacket message r)

/-! ## `handleConnection` on bytes -/

/-- `handleConnection`, server.go:213-439, on all the bytes a client sends before it closes the connection, with no other client in between.
The first argument bounds the number of messages; the number of bytes suffices. Malformed or incomplete input ends the connection. -/
def serveBytes {σ : Type} (other : Nat → Str → Option Val) (V : Env) (srv : Srv σ) :
    Nat → (bound : Str) → σ → (oracle : Nat → Oracle) → Str → ConnOut σ
  | 0, bound, st, _, _ => ⟨[], .closed, srv.close bound st⟩
  | n + 1, bound, st, oracle, s =>
    match readPacket other s with
    | .more => ⟨[], .closed, srv.close bound st⟩
    | .bad => ⟨[], .closed, srv.close bound st⟩
    | .ok (p, rest) =>
      let out := handlePacket V srv (oracle 0) p bound st
      match out.next with
      | .go b =>
        let r := serveBytes other V srv n b out.st (fun i => oracle (i + 1)) rest
        ⟨(p, out.resps) :: r.log, r.next, r.st⟩
      | x => ⟨[(p, out.resps)], x, out.st⟩

end Idm
