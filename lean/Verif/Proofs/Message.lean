import Verif.Proofs.Ber
import Verif.Spec.Message
/-!
# Lemmas on LDAP messages as bytes
-/
namespace Idm

/-! ## The shortest encoding -/

mutual
def Tlv.bytes : Tlv → Str
  | .prim c t v => identBytes c false t ++ lengthBytes v.length ++ v
  | .con c t ks => identBytes c true t ++ lengthBytes (tlvsBytes ks).length ++ tlvsBytes ks
def tlvsBytes : List Tlv → Str
  | [] => []
  | k :: ks => k.bytes ++ tlvsBytes ks
end

mutual
/-- All tags are below 31. -/
def TagsOk : Tlv → Prop
  | .prim _ t _ => t < 31
  | .con _ t ks => t < 31 ∧ TagsOkAll ks
def TagsOkAll : List Tlv → Prop
  | [] => True
  | k :: ks => TagsOk k ∧ TagsOkAll ks
end

mutual
theorem berOf_bytes : (t : Tlv) → TagsOk t → t.bytes.length < 2 ^ 64 → BerOf t t.bytes
  | .prim c t v, h, hl => by
    simp only [Tlv.bytes, List.length_append] at hl ⊢
    rw [identBytes_octet h]
    exact .prim c t v _ h (lengthBytes_octets (by omega))
  | .con c t ks, h, hl => by
    simp only [Tlv.bytes, List.length_append] at hl ⊢
    rw [identBytes_octet h.1]
    exact .con c t ks _ _ h.1 (berOfAll_bytes ks h.2 (by omega)) (lengthBytes_octets (by omega))
theorem berOfAll_bytes : (ks : List Tlv) → TagsOkAll ks → (tlvsBytes ks).length < 2 ^ 64 → BerOfAll ks (tlvsBytes ks)
  | [], _, _ => .nil
  | k :: ks, h, hl => by
    simp only [tlvsBytes, List.length_append] at hl ⊢
    exact .cons k ks _ _ (berOf_bytes k h.1 (by omega)) (berOfAll_bytes ks h.2 (by omega))
end

theorem tlvsBytes_append (as bs : List Tlv) : tlvsBytes (as ++ bs) = tlvsBytes as ++ tlvsBytes bs := by
  induction as with
  | nil => rfl
  | cons a as ih => simp [tlvsBytes, ih]

theorem packets_append (as bs : List Tlv) : packets (as ++ bs) = packets as ++ packets bs := by
  induction as with
  | nil => rfl
  | cons a as ih => simp [packets, ih]

theorem packets_map {α : Type} (g : α → Tlv) (f : α → Packet) (h : ∀ a, (g a).packet = f a) (as : List α) :
    packets (as.map g) = as.map f := by
  induction as with
  | nil => rfl
  | cons a as ih => simp [packets, ih, h]

theorem packets_eq_map (ks : List Tlv) : packets ks = ks.map Tlv.packet := by
  have := packets_map (fun t : Tlv => t) Tlv.packet (fun _ => rfl) ks
  simpa using this

/-! ## Requests are the packets of `Spec/Wire` -/

theorem tOct_packet (s : Str) : (tOct s).packet = octet s := by simp [tOct, Tlv.packet, octet, tagOctetString]

theorem tInt_packet {i : Int} (h : Int64 i) : (tInt i).packet = berInt i := by
  simp [tInt, Tlv.packet, berInt, tagInteger, (intBytes_spec h.1 h.2).1]

theorem tBool_packet (b : Bool) : (tBool b).packet = wBool b := by
  cases b <;> rfl

theorem tEnum_packet {i : Nat} (h : i < 128) : (tEnum i).packet = wEnum i := by
  have : ∀ i : Fin 128, sint [UInt8.ofNat i] = (i : Nat) := by decide +kernel
  simp [tEnum, Tlv.packet, wEnum, this ⟨i, h⟩]

theorem tCtx_packet (t : Nat) (s : Str) : (tCtx t s).packet = ctxStr t s := by simp [tCtx, Tlv.packet, ctxStr]

theorem tSeq_packet (ks : List Tlv) : (tSeq ks).packet = wSeq (packets ks) := rfl
theorem tSet_packet (ks : List Tlv) : (tSet ks).packet = wSet (packets ks) := rfl
theorem tReq_packet (t : Nat) (ks : List Tlv) : (tReq t ks).packet = wReq t (packets ks) := rfl

theorem tMsg_packet {id : Int} (h : Int64 id) (req : Tlv) : (tMsg id req).packet = wMsg id req.packet := by
  rw [tMsg, tSeq_packet]
  simp only [packets, tInt_packet h]
  rfl

theorem tMsgC_packet {id : Int} (h : Int64 id) (req : Tlv) (cs : List Tlv) :
    (tMsgC id req cs).packet = wMsgC id req.packet (cs.map Tlv.packet) := by
  rw [tMsgC, tSeq_packet]
  simp only [packets, tInt_packet h, Tlv.packet, packets_eq_map]
  rfl

theorem tAttr_packet (a : Attr) : (tAttr a).packet = wAttr a := by
  rw [tAttr, tSeq_packet]
  simp only [packets, tOct_packet, tSet_packet, packets_map tOct octet tOct_packet]
  rfl

theorem tAdd_packet (r : AddReq) : (tAdd r).packet = wAdd r := by
  rw [tAdd, tReq_packet]
  simp only [packets, tOct_packet, tSeq_packet, packets_map tAttr wAttr tAttr_packet]
  rfl

theorem tDelete_packet (dn : Str) : (tDelete dn).packet = wDelete dn := by simp [tDelete, Tlv.packet, wDelete]

theorem tModifyDN_packet (r : ModifyDNReq) : (tModifyDN r).packet = wModifyDN r := by
  rw [tModifyDN, tReq_packet]
  simp only [packets, tOct_packet, tBool_packet]
  rfl

theorem tChange_packet {c : Change} (h : c.op < 128) : (tChange c).packet = wChange c := by
  rw [tChange, tSeq_packet]
  simp only [packets, tEnum_packet h, tAttr_packet]
  rfl

theorem tModify_packet {r : ModifyReq} (h : ∀ c ∈ r.changes, c.op < 128) : (tModify r).packet = wModify r := by
  have hc : packets (r.changes.map tChange) = r.changes.map wChange := by
    rw [packets_eq_map, List.map_map]
    exact List.map_congr_left fun c hc => tChange_packet (h c hc)
  rw [tModify, tReq_packet]
  simp only [packets, tOct_packet, tSeq_packet, hc]
  rfl

theorem tBind_packet (dn pw : Str) : (tBind dn pw).packet = wBind dn pw := by
  rw [tBind, tReq_packet]
  simp only [packets, tOct_packet, tCtx_packet, tInt_packet (show Int64 3 by unfold Int64; omega)]
  rfl

theorem tSearch_packet (base : Str) {scope sizeLimit : Nat} (hs : scope < 128) (hl : sizeLimit < 2 ^ 63) (filter : Tlv) (attrs : List Str) :
    (tSearch base scope sizeLimit filter attrs).packet = wSearch base scope sizeLimit filter.packet attrs := by
  rw [tSearch, tReq_packet]
  simp only [packets, tOct_packet, tEnum_packet hs, tEnum_packet (show 0 < 128 by omega), tInt_packet (show Int64 sizeLimit by unfold Int64; omega),
    tInt_packet (show Int64 0 by unfold Int64; omega), tBool_packet, tSeq_packet, packets_map tOct octet tOct_packet]
  rfl

theorem tPwModify_packet (body : Str) : (tPwModify body).packet = wPwModify body := by
  rw [tPwModify, tReq_packet]
  simp only [packets, tCtx_packet]
  rfl

mutual
theorem tFilter_encodes : (f : Filter) → Supported f → Encodes f (tFilter f).packet
  | .and fs, h => ⟨rfl, tFilters_encodes fs h⟩
  | .or fs, h => ⟨rfl, tFilters_encodes fs h⟩
  | .not f, h => ⟨rfl, _, rfl, tFilter_encodes f h⟩
  | .eq a v, _ => ⟨rfl, _, _, rfl, by rw [tOct_packet]; rfl, by rw [tOct_packet]; rfl⟩
  | .sub a i m f, _ => by
    refine ⟨rfl, _, _, rfl, by rw [tOct_packet]; rfl, ?_⟩
    rw [tSeq_packet, packets_map (fun c : Nat × Str => tCtx c.1 c.2) (fun c => ctxStr c.1 c.2) (fun c => tCtx_packet _ _)]
    simp [wSeq, Packet.kids, ctxStr, Packet.tag, Packet.data, List.map_map, Function.comp_def]
  | .present a, _ => ⟨rfl, rfl⟩
theorem tFilters_encodes : (fs : List Filter) → SupportedAll fs → EncodesAll fs (packets (tFilters fs))
  | [], _ => rfl
  | f :: fs, h => ⟨_, _, rfl, tFilter_encodes f h.1, tFilters_encodes fs h.2⟩
end

mutual
theorem tFilter_wire : (f : Filter) → RfcFilter f → Wire f (tFilter f).packet
  | .and fs, h => ⟨rfl, tFilters_wire fs h⟩
  | .or fs, h => ⟨rfl, tFilters_wire fs h⟩
  | .not f, h => ⟨rfl, _, rfl, tFilter_wire f h⟩
  | .eq a v, _ => ⟨rfl, _, _, rfl, rfl, rfl⟩
  | .sub a i m f, _ => by
    refine ⟨rfl, _, _, rfl, rfl, ?_⟩
    rw [tSeq_packet, packets_map (fun c : Nat × Str => tCtx c.1 c.2) (fun c => ctxStr c.1 c.2) (fun c => tCtx_packet _ _)]
    simp [wSeq, Packet.kids, ctxStr, Packet.tag, Packet.data, List.map_map, Function.comp_def]
  | .present a, _ => ⟨rfl, rfl⟩
  | .cmp t a v, h => ⟨h, rfl, _, _, rfl, rfl, rfl⟩
  | .ext r a v d, _ => by
    refine ⟨rfl, ?_⟩
    show (packets ((extParts r a v d).map fun c => tCtx c.1 c.2)).map _ = _
    rw [packets_map (fun c : Nat × Str => tCtx c.1 c.2) (fun c => ctxStr c.1 c.2) (fun c => tCtx_packet _ _)]
    simp [ctxStr, Packet.tag, Packet.val, Packet.data, List.map_map, Function.comp_def]
theorem tFilters_wire : (fs : List Filter) → RfcFilters fs → WireAll fs (packets (tFilters fs))
  | [], _ => rfl
  | f :: fs, h => ⟨_, _, rfl, tFilter_wire f h.1, tFilters_wire fs h.2⟩
end

/-! ## They consist of the types of LDAP -/

theorem ldapTypesAll_iff (ks : List Tlv) : LdapTypesAll ks ↔ ∀ k ∈ ks, LdapTypes k := by
  induction ks with
  | nil => simp [LdapTypesAll]
  | cons k ks ih => simp [LdapTypesAll, ih]

theorem tOct_types (s : Str) : LdapTypes (tOct s) := fun _ => .inl rfl
theorem tInt_types {i : Int} (h : Int64 i) : LdapTypes (tInt i) := fun _ => .inr ⟨.inr (.inl rfl), (intBytes_spec h.1 h.2).2⟩
theorem tBool_types (b : Bool) : LdapTypes (tBool b) := fun _ => .inr ⟨.inl rfl, by simp, by simp⟩
theorem tEnum_types (i : Nat) : LdapTypes (tEnum i) := fun _ => .inr ⟨.inr (.inr rfl), by simp, by simp⟩
theorem tCtx_types (t : Nat) (s : Str) : LdapTypes (tCtx t s) := fun h => by cases h
theorem con_types {c : Cls} {t : Nat} {ks : List Tlv} (h : ∀ k ∈ ks, LdapTypes k) : LdapTypes (.con c t ks) := (ldapTypesAll_iff ks).2 h
theorem map_types {α : Type} {g : α → Tlv} (h : ∀ a, LdapTypes (g a)) (as : List α) : ∀ k ∈ as.map g, LdapTypes k := by
  intro k hk
  obtain ⟨a, -, rfl⟩ := List.mem_map.1 hk
  exact h a

theorem tAttr_types (a : Attr) : LdapTypes (tAttr a) :=
  ⟨tOct_types _, con_types (map_types tOct_types _), trivial⟩
theorem tAdd_types (r : AddReq) : LdapTypes (tAdd r) := ⟨tOct_types _, con_types (map_types tAttr_types _), trivial⟩
theorem tDelete_types (dn : Str) : LdapTypes (tDelete dn) := fun h => by cases h
theorem tChange_types (c : Change) : LdapTypes (tChange c) := ⟨tEnum_types _, tAttr_types _, trivial⟩
theorem tModify_types (r : ModifyReq) : LdapTypes (tModify r) := ⟨tOct_types _, con_types (map_types tChange_types _), trivial⟩
theorem tModifyDN_types (r : ModifyDNReq) : LdapTypes (tModifyDN r) := ⟨tOct_types _, tOct_types _, tBool_types _, trivial⟩
theorem tBind_types (dn pw : Str) : LdapTypes (tBind dn pw) := ⟨tInt_types (by unfold Int64; omega), tOct_types _, tCtx_types _ _, trivial⟩
theorem tPwModify_types (body : Str) : LdapTypes (tPwModify body) := ⟨tCtx_types _ _, tCtx_types _ _, trivial⟩
theorem tMsg_types {id : Int} (h : Int64 id) {req : Tlv} (hr : LdapTypes req) : LdapTypes (tMsg id req) := ⟨tInt_types h, hr, trivial⟩
theorem tMsgC_types {id : Int} (h : Int64 id) {req : Tlv} (hr : LdapTypes req) {cs : List Tlv} (hc : ∀ c ∈ cs, LdapTypes c) :
    LdapTypes (tMsgC id req cs) := ⟨tInt_types h, hr, con_types hc, trivial⟩
theorem tSearch_types (base : Str) (scope : Nat) {sizeLimit : Nat} (hl : sizeLimit < 2 ^ 63) {filter : Tlv} (hf : LdapTypes filter) (attrs : List Str) :
    LdapTypes (tSearch base scope sizeLimit filter attrs) :=
  ⟨tOct_types _, tEnum_types _, tEnum_types _, tInt_types (by unfold Int64; omega), tInt_types (by unfold Int64; omega), tBool_types _, hf,
    con_types (map_types tOct_types _), trivial⟩

mutual
theorem tFilter_types : (f : Filter) → LdapTypes (tFilter f)
  | .and fs => tFilters_types fs
  | .or fs => tFilters_types fs
  | .not f => ⟨tFilter_types f, trivial⟩
  | .eq a v => ⟨tOct_types _, tOct_types _, trivial⟩
  | .sub a i m f => ⟨tOct_types _, con_types (map_types (fun c : Nat × Str => tCtx_types c.1 c.2) _), trivial⟩
  | .present a => tCtx_types _ _
  | .cmp t a v => ⟨tOct_types _, tOct_types _, trivial⟩
  | .ext r a v d => con_types (map_types (fun c : Nat × Str => tCtx_types c.1 c.2) _)
theorem tFilters_types : (fs : List Filter) → LdapTypesAll (tFilters fs)
  | [] => trivial
  | f :: fs => ⟨tFilter_types f, tFilters_types fs⟩
end

/-! ## Responses -/

/-- Contents octets of the shortest encoding. -/
def Tlv.content : Tlv → Str
  | .prim _ _ v => v
  | .con _ _ ks => tlvsBytes ks

/-- The packet is written as the value. -/
def Like (p : Packet) : Tlv → Prop
  | .prim c t v => p.cls = c ∧ p.cons = false ∧ p.tag = t ∧ p.data = v
  | .con c t ks => p.cls = c ∧ p.cons = true ∧ p.tag = t ∧ p.data = tlvsBytes ks

theorem Like.bytes {p : Packet} {t : Tlv} (h : Like p t) : berBytes p = t.bytes := by
  cases t with
  | prim c t v => obtain ⟨rfl, h2, rfl, rfl⟩ := h; rw [berBytes, h2, Tlv.bytes]
  | con c t ks => obtain ⟨rfl, h2, rfl, h4⟩ := h; rw [berBytes, h2, h4, Tlv.bytes]

theorem like_empty (c : Cls) (t : Nat) : Like (berEncode c true t) (.con c t []) := ⟨rfl, rfl, rfl, rfl⟩
theorem like_str (c : Cls) (t : Nat) (s : Str) : Like (berString c t s) (.prim c t s) := ⟨rfl, rfl, rfl, rfl⟩
theorem like_oct (s : Str) : Like (berString .universal tagOctetString s) (tOct s) := ⟨rfl, rfl, rfl, rfl⟩
theorem like_int (t : Nat) (i : Int) : Like (berInteger t i) (.prim .universal t (intBytes i)) := ⟨rfl, rfl, rfl, rfl⟩

theorem Like.append {p q : Packet} {c : Cls} {t : Nat} {ks : List Tlv} {k : Tlv} (h : Like p (.con c t ks)) (hq : Like q k) :
    Like (p.append q) (.con c t (ks ++ [k])) := by
  obtain ⟨pc, pk, pt, pv, pd, pks⟩ := p
  obtain ⟨h1, h2, h3, h4⟩ := h
  refine ⟨h1, h2, h3, ?_⟩
  simp only [Packet.data] at h4
  simp only [Packet.append, Packet.data, h4, hq.bytes, tlvsBytes_append, tlvsBytes, List.append_nil]

theorem Like.appendAll {α : Type} {f : α → Packet} {g : α → Tlv} (hfg : ∀ a, Like (f a) (g a)) (as : List α) {p : Packet} {c : Cls} {t : Nat}
    {ks : List Tlv} (h : Like p (.con c t ks)) : Like (as.foldl (fun p a => p.append (f a)) p) (.con c t (ks ++ as.map g)) := by
  induction as generalizing p ks with
  | nil => simpa using h
  | cons a as ih =>
    have := ih (h.append (hfg a))
    simpa using this

theorem like_wrap {c : Cls} {t : Nat} {q : Packet} {k : Tlv} (h : Like q k) : Like ((berEncode c false t).append q) (.prim c t k.bytes) :=
  ⟨rfl, rfl, rfl, by simp [berEncode, Packet.append, Packet.data, h.bytes]⟩

/-- The messages sent. -/
def ldapResult (code : Nat) (m : Str) : List Tlv := [.prim .universal 10 (intBytes (sentCode code)), tOct [], tOct m]

def tControl : Control → Tlv
  | .paging size cookie => tSeq [tOct pagingOID, tOct (tSeq [tInt size, tOct cookie]).bytes]
  | .other oid => tSeq [tOct oid]

def respTlv (m : Str) : Resp → Tlv
  | .result id tag code => tSeq [tInt id, tReq tag (ldapResult code (if tag = 1 then [] else m))]
  | .entry id e => tSeq [tInt id, tReq 4 [tOct e.dn, tSeq (e.attrs.map tAttr)]]
  | .searchDone id code none => tSeq [tInt id, tReq 5 (ldapResult code [])]
  | .searchDone id code (some cs) => tSeq [tInt id, tReq 5 (ldapResult code []), .con .context 0 (cs.map tControl)]
  | .extended id code oid none => tSeq [tInt id, tReq 24 (ldapResult code m ++ [tCtx 10 oid])]
  | .extended id code oid (some pw) => tSeq [tInt id, tReq 24 (ldapResult code m ++ [tCtx 10 oid, tCtx 11 (tSeq [tCtx 0 pw]).bytes])]

theorem like_result (t : Nat) (code : Nat) (m : Str) :
    Like ((((berEncode .application true t).append (berInteger tagEnumerated (sentCode code))).append
      (berString .universal tagOctetString [])).append (berString .universal tagOctetString m)) (tReq t (ldapResult code m)) :=
  (((like_empty _ _).append (like_int _ _)).append (like_oct _)).append (like_oct _)

theorem like_msg {id : Int} {q : Packet} {k : Tlv} (h : Like q k) :
    Like (((berEncode .universal true tagSequence).append (berInteger tagInteger id)).append q) (tSeq [tInt id, k]) :=
  ((like_empty _ _).append (like_int _ _)).append h

theorem like_attr (a : Attr) : Like (encodeSearchAttribute a) (tAttr a) :=
  ((like_empty _ _).append (like_oct _)).append (Like.appendAll like_oct a.vals (like_empty .universal tagSet))

theorem like_control (c : Control) : Like (encodeControl c) (tControl c) := by
  cases c with
  | other oid => exact (like_empty _ _).append (like_oct _)
  | paging size cookie =>
    exact ((like_empty _ _).append (like_oct _)).append
      (like_wrap (c := .universal) (t := tagOctetString) (((like_empty .universal tagSequence).append (like_int tagInteger size)).append (like_oct cookie)))

theorem like_resp (m : Str) (r : Resp) : Like (respPacket m r) (respTlv m r) := by
  cases r with
  | result id tag code =>
    unfold respPacket respTlv
    by_cases h : tag = 1
    · have h' : tag = appBindResponse := h
      dsimp only
      rw [if_pos h', if_pos h, h]
      exact like_msg (like_result _ _ _)
    · have h' : ¬ tag = appBindResponse := h
      dsimp only
      rw [if_neg h', if_neg h]
      exact like_msg (like_result _ _ _)
  | entry id e =>
    exact like_msg (((like_empty _ _).append (like_oct _)).append (Like.appendAll like_attr e.attrs (like_empty .universal tagSequence)))
  | searchDone id code cs =>
    cases cs with
    | none => exact like_msg (like_result _ _ _)
    | some cs =>
      exact (like_msg (like_result _ _ _)).append (Like.appendAll like_control cs (like_empty .context 0))
  | extended id code oid pw =>
    cases pw with
    | none => exact like_msg ((like_result _ _ _).append (like_str _ _ _))
    | some pw =>
      exact like_msg (((like_result _ _ _).append (like_str _ _ _)).append (like_wrap ((like_empty _ _).append (like_str _ _ _))))

/-! ## Encodings are unambiguous -/

theorem lenOctets_unique {n n' : Nat} {l l' s s' : Str} (h : LenOctets n l) (h' : LenOctets n' l') (he : l ++ s = l' ++ s') :
    n = n' ∧ l = l' ∧ s = s' := by
  have hb : ∀ {a b : Nat}, a < 256 → b < 256 → UInt8.ofNat a = UInt8.ofNat b → a = b := by
    intro a b ha hb h
    rw [← toNat_ofNat_lt ha, ← toNat_ofNat_lt hb, h]
  rcases h with ⟨h1, rfl⟩ | ⟨ds, h1, h2, h3, rfl⟩ <;> rcases h' with ⟨h1', rfl⟩ | ⟨ds', h1', h2', h3', rfl⟩
  · obtain ⟨e1, e2⟩ := List.cons.inj he
    have := hb (by omega) (by omega) e1
    subst this
    exact ⟨rfl, rfl, e2⟩
  · have := hb (by omega) (by omega) (List.cons.inj he).1
    omega
  · have := hb (by omega) (by omega) (List.cons.inj he).1
    omega
  · obtain ⟨e1, e2⟩ := List.cons.inj he
    have := hb (by omega) (by omega) e1
    have e2 : ds ++ s = ds' ++ s' := e2
    obtain ⟨rfl, rfl⟩ := List.append_inj e2 (by omega)
    exact ⟨by omega, rfl, rfl⟩

theorem identOctet_unique {c c' : Cls} {k k' : Bool} {t t' : Nat} (h : t < 31) (h' : t' < 31) (he : identOctet c k t = identOctet c' k' t') :
    c = c' ∧ k = k' ∧ t = t' := by
  have e := readIdent_octet (c := c) (k := k) h []
  rw [he, readIdent_octet h'] at e
  cases e
  exact ⟨rfl, rfl, rfl⟩

mutual
theorem berOf_unique : (t : Tlv) → (bs : Str) → BerOf t bs → ∀ (t' : Tlv) (bs' r r' : Str), BerOf t' bs' →
    bs ++ r = bs' ++ r' → t = t' ∧ bs = bs' ∧ r = r'
  | .prim c t v, bs, h, t', bs', r, r', h', he => by
    cases h with
    | prim _ _ _ l h1 h2 =>
      cases h' with
      | con c' t' ks' body' l' h1' h2' h3' =>
        exact absurd (identOctet_unique h1 h1' (List.cons.inj he).1).2.1 (by decide)
      | prim c' t' v' l' h1' h2' =>
        obtain ⟨e1, e2⟩ := List.cons.inj he
        obtain ⟨rfl, -, rfl⟩ := identOctet_unique h1 h1' e1
        have e2 : (l ++ v) ++ r = (l' ++ v') ++ r' := e2
        rw [List.append_assoc, List.append_assoc] at e2
        obtain ⟨e3, rfl, e4⟩ := lenOctets_unique h2 h2' e2
        obtain ⟨rfl, rfl⟩ := List.append_inj e4 e3
        exact ⟨rfl, rfl, rfl⟩
  | .con c t ks, bs, h, t', bs', r, r', h', he => by
    cases h with
    | con _ _ _ body l h1 h2 h3 =>
      cases h' with
      | prim c' t' v' l' h1' h2' =>
        exact absurd (identOctet_unique h1 h1' (List.cons.inj he).1).2.1 (by decide)
      | con c' t' ks' body' l' h1' h2' h3' =>
        obtain ⟨e1, e2⟩ := List.cons.inj he
        obtain ⟨rfl, -, rfl⟩ := identOctet_unique h1 h1' e1
        have e2 : (l ++ body) ++ r = (l' ++ body') ++ r' := e2
        rw [List.append_assoc, List.append_assoc] at e2
        obtain ⟨e3, rfl, e4⟩ := lenOctets_unique h3 h3' e2
        obtain ⟨rfl, rfl⟩ := List.append_inj e4 e3
        rw [berOfAll_unique ks body h2 ks' h2']
        exact ⟨rfl, rfl, rfl⟩
theorem berOfAll_unique : (ks : List Tlv) → (body : Str) → BerOfAll ks body → ∀ ks' : List Tlv, BerOfAll ks' body → ks = ks'
  | [], body, h, ks', h' => by
    cases h
    generalize hb : ([] : Str) = b at h'
    cases h' with
    | nil => rfl
    | cons k ks a b h1 h2 =>
      have := h1.long
      have := congrArg List.length hb
      simp at this
      omega
  | k :: ks, body, h, ks', h' => by
    cases h with
    | cons _ _ a b h1 h2 =>
      have hlong := h1.long
      generalize hb : a ++ b = body at h'
      cases h' with
      | nil =>
        have := congrArg List.length hb
        rw [List.length_append, List.length_nil] at this
        omega
      | cons k' ks' a' b' h1' h2' =>
        obtain ⟨rfl, rfl, rfl⟩ := berOf_unique k a h1 k' a' b b' h1' hb
        rw [berOfAll_unique ks b h2 ks' h2']
end

theorem berOf_inj {t t' : Tlv} {bs : Str} (h : BerOf t bs) (h' : BerOf t' bs) : t = t' :=
  (berOf_unique t bs h t' bs [] [] h' rfl).1

/-! ## Responses are sent -/

theorem respBytes_eq (m : Str) (r : Resp) : respBytes m r = (respTlv m r).bytes := (like_resp m r).bytes

theorem replyCode_lt {code : Nat} (h : ReplyCode code) : code < 256 := by
  simp only [ReplyCode, List.mem_cons, List.not_mem_nil, or_false] at h
  omega

theorem sentCode_sint {code : Nat} (h : ReplyCode code) : sint (intBytes (sentCode code)) = code := by
  have := replyCode_lt h
  have e : sentCode code = code := by unfold sentCode; omega
  rw [e, (intBytes_spec (by omega) (by omega)).1]

theorem isResult_sent {code : Nat} (h : ReplyCode code) (m : Str) : IsResult code (ldapResult code m) := ⟨_, m, rfl, sentCode_sint h⟩

theorem tagsOkAll_iff (ks : List Tlv) : TagsOkAll ks ↔ ∀ k ∈ ks, TagsOk k := by
  induction ks with
  | nil => simp [TagsOkAll]
  | cons k ks ih => simp [TagsOkAll, ih]

theorem map_tags {α : Type} {g : α → Tlv} (h : ∀ a, TagsOk (g a)) (as : List α) : TagsOkAll (as.map g) := by
  rw [tagsOkAll_iff]
  intro k hk
  obtain ⟨a, -, rfl⟩ := List.mem_map.1 hk
  exact h a

theorem tOct_tags (s : Str) : TagsOk (tOct s) := show 4 < 31 by decide
theorem tInt_tags (i : Int) : TagsOk (tInt i) := show 2 < 31 by decide
theorem tAttr_tags (a : Attr) : TagsOk (tAttr a) :=
  ⟨(by decide : 16 < 31), tOct_tags _, ⟨(by decide : 17 < 31), map_tags tOct_tags _⟩, trivial⟩
theorem ldapResult_tags (code : Nat) (m : Str) : TagsOkAll (ldapResult code m) := ⟨(by decide : 10 < 31), tOct_tags _, tOct_tags _, trivial⟩
theorem tControl_tags (c : Control) : TagsOk (tControl c) := by
  cases c with
  | paging n k => exact ⟨(by decide : 16 < 31), tOct_tags _, tOct_tags _, trivial⟩
  | other oid => exact ⟨(by decide : 16 < 31), tOct_tags _, trivial⟩

theorem tagsOkAll_append {as bs : List Tlv} (ha : TagsOkAll as) (hb : TagsOkAll bs) : TagsOkAll (as ++ bs) := by
  rw [tagsOkAll_iff] at *
  intro k hk
  rcases List.mem_append.1 hk with h | h
  · exact ha k h
  · exact hb k h

theorem resp_tags (m : Str) {r : Resp} (h : Sendable r) : TagsOk (respTlv m r) := by
  cases r with
  | result id tag code => exact ⟨(by decide : 16 < 31), tInt_tags _, ⟨by have := h.2.2; omega, ldapResult_tags _ _⟩, trivial⟩
  | entry id e =>
    exact ⟨(by decide : 16 < 31), tInt_tags _, ⟨(by decide : 4 < 31), tOct_tags _, ⟨(by decide : 16 < 31), map_tags tAttr_tags _⟩, trivial⟩, trivial⟩
  | searchDone id code cs =>
    cases cs with
    | none => exact ⟨(by decide : 16 < 31), tInt_tags _, ⟨(by decide : 5 < 31), ldapResult_tags _ _⟩, trivial⟩
    | some cs =>
      exact ⟨(by decide : 16 < 31), tInt_tags _, ⟨(by decide : 5 < 31), ldapResult_tags _ _⟩, ⟨(by decide : 0 < 31), map_tags tControl_tags _⟩, trivial⟩
  | extended id code oid pw =>
    cases pw with
    | none =>
      exact ⟨(by decide : 16 < 31), tInt_tags _, ⟨(by decide : 24 < 31), tagsOkAll_append (ldapResult_tags _ _) ⟨(by decide : 10 < 31), trivial⟩⟩, trivial⟩
    | some pw =>
      exact ⟨(by decide : 16 < 31), tInt_tags _, ⟨(by decide : 24 < 31),
        tagsOkAll_append (ldapResult_tags _ _) ⟨(by decide : 10 < 31), (by decide : 11 < 31), trivial⟩⟩, trivial⟩

theorem tlvsBytes_mem {k : Tlv} {ks : List Tlv} (h : k ∈ ks) : k.bytes.length ≤ (tlvsBytes ks).length := by
  induction ks with
  | nil => cases h
  | cons a ks ih =>
    rw [tlvsBytes, List.length_append]
    cases h with
    | head => omega
    | tail _ h => have := ih h; omega

theorem con_kid_short {k : Tlv} {c : Cls} {t : Nat} {ks : List Tlv} (h : k ∈ ks) : k.bytes.length ≤ (Tlv.con c t ks).bytes.length := by
  have := tlvsBytes_mem h
  simp only [Tlv.bytes, List.length_append]
  omega

theorem prim_short {c : Cls} {t : Nat} {v : Str} : v.length ≤ (Tlv.prim c t v).bytes.length := by
  simp only [Tlv.bytes, List.length_append]
  omega

theorem areControls_sent {cs : List Control} (h : ∀ (n : Nat) k, .paging n k ∈ cs → (tSeq [tInt n, tOct k]).bytes.length < 2 ^ 64) :
    AreControls cs (cs.map tControl) := by
  induction cs with
  | nil => rfl
  | cons c cs ih =>
    refine ⟨_, _, rfl, ?_, ih fun n k hm => h n k (List.mem_cons_of_mem _ hm)⟩
    cases c with
    | other oid => rfl
    | paging n k =>
      exact ⟨_, berOf_bytes (tSeq [tInt n, tOct k]) ⟨(by decide : 16 < 31), tInt_tags _, tOct_tags _, trivial⟩ (h n k (List.mem_cons_self ..)), rfl⟩

theorem isReply_sent (m : Str) {r : Resp} (h : Sendable r) (hl : (respTlv m r).bytes.length < 2 ^ 64) : IsReply (respTlv m r) r := by
  have hid : ∀ {id : Int}, Int64 id → sint (intBytes id) = id := fun hi => (intBytes_spec hi.1 hi.2).1
  cases r with
  | result id tag code => exact ⟨_, _, rfl, hid h.1, isResult_sent h.2.1 _⟩
  | entry id e => exact ⟨_, rfl, hid h⟩
  | searchDone id code cs =>
    cases cs with
    | none => exact ⟨_, _, rfl, hid h.1, isResult_sent h.2.1 _⟩
    | some cs =>
      refine ⟨_, _, _, rfl, hid h.1, isResult_sent h.2.1 _, areControls_sent fun n k hm => ?_⟩
      have h1 : (tSeq [tInt n, tOct k]).bytes.length ≤ (tOct (tSeq [tInt n, tOct k]).bytes).bytes.length := prim_short
      have h2 : (tOct (tSeq [tInt n, tOct k]).bytes).bytes.length ≤ (tControl (.paging n k)).bytes.length :=
        con_kid_short (List.mem_cons_of_mem _ (List.mem_cons_self ..))
      have h3 : (tControl (.paging n k)).bytes.length ≤ (Tlv.con .context 0 (cs.map tControl)).bytes.length :=
        con_kid_short (List.mem_map_of_mem hm)
      have h4 : (Tlv.con .context 0 (cs.map tControl)).bytes.length ≤ (respTlv m (.searchDone id code (some cs))).bytes.length :=
        con_kid_short (List.mem_cons_of_mem _ (List.mem_cons_of_mem _ (List.mem_cons_self ..)))
      omega
  | extended id code oid pw =>
    cases pw with
    | none => exact ⟨_, _, rfl, hid h.1, isResult_sent h.2 _⟩
    | some pw =>
      refine ⟨_, _, _, rfl, hid h.1, isResult_sent h.2 _, berOf_bytes _ ⟨(by decide : 16 < 31), (by decide : 0 < 31), trivial⟩ ?_⟩
      have h1 : (tSeq [tCtx 0 pw]).bytes.length ≤ (tCtx 11 (tSeq [tCtx 0 pw]).bytes).bytes.length := prim_short
      have h2 : (tCtx 11 (tSeq [tCtx 0 pw]).bytes).bytes.length ≤
          (tReq 24 (ldapResult code m ++ [tCtx 10 oid, tCtx 11 (tSeq [tCtx 0 pw]).bytes])).bytes.length :=
        con_kid_short (by simp)
      have h3 : (tReq 24 (ldapResult code m ++ [tCtx 10 oid, tCtx 11 (tSeq [tCtx 0 pw]).bytes])).bytes.length ≤
          (respTlv m (.extended id code oid (some pw))).bytes.length := con_kid_short (by simp)
      omega

/-! ## A client reads one response in a message -/

theorem isResult_code {c c' : Nat} {ks : List Tlv} (h : IsResult c ks) (h' : IsResult c' ks) : c = c' := by
  obtain ⟨a, m, rfl, h2⟩ := h
  obtain ⟨a', m', h1', h2'⟩ := h'
  simp at h1'
  rw [← h1'.1, h2] at h2'
  omega

theorem isResult_length {c : Nat} {ks : List Tlv} (h : IsResult c ks) : ks.length = 3 := by
  obtain ⟨a, m, rfl, -⟩ := h
  rfl

theorem tInt_inj {i j : Int} (hi : Int64 i) (hj : Int64 j) (h : tInt i = tInt j) : i = j := by
  simp [tInt] at h
  rw [← (intBytes_spec hi.1 hi.2).1, h, (intBytes_spec hj.1 hj.2).1]

theorem areControls_unique {cs cs' : List Control} {ts : List Tlv} (h : AreControls cs ts) (h' : AreControls cs' ts)
    (hc : ∀ n k, .paging n k ∈ cs → n < 2 ^ 32) (hc' : ∀ n k, .paging n k ∈ cs' → n < 2 ^ 32) : cs = cs' := by
  induction cs generalizing cs' ts with
  | nil =>
    cases h
    cases cs' with
    | nil => rfl
    | cons c cs' => obtain ⟨_, _, h, -⟩ := h'; cases h
  | cons c cs ih =>
    obtain ⟨t, ts, rfl, h1, h2⟩ := h
    cases cs' with
    | nil => cases h'
    | cons c' cs' =>
      obtain ⟨t', ts', h, h1', h2'⟩ := h'
      obtain ⟨rfl, rfl⟩ := List.cons.inj h
      rw [ih h2 h2' (fun n k hm => hc n k (List.mem_cons_of_mem _ hm)) (fun n k hm => hc' n k (List.mem_cons_of_mem _ hm))]
      congr 1
      cases c with
      | other oid =>
        cases h1
        cases c' with
        | other oid' => simp [IsControl, tSeq, tOct] at h1'; rw [h1']
        | paging n k => obtain ⟨v, -, h⟩ := h1'; simp [tPaging, tSeq] at h
      | paging n k =>
        obtain ⟨v, hv, rfl⟩ := h1
        cases c' with
        | other oid' => simp [IsControl, tSeq, tPaging] at h1'
        | paging n' k' =>
          obtain ⟨v', hv', h⟩ := h1'
          simp [tPaging, tSeq, tOct] at h
          subst h
          have := berOf_inj hv hv'
          simp only [tPagingValue, tSeq, Tlv.con.injEq, List.cons.injEq, true_and, and_true] at this
          have hn := hc n k (List.mem_cons_self ..)
          have hn' := hc' n' k' (List.mem_cons_self ..)
          have e1 := tInt_inj (by unfold Int64; omega) (by unfold Int64; omega) this.1
          have e2 := this.2
          simp [tOct] at e2
          rw [e2]
          congr 1
          omega

theorem tAttr_inj {a b : Attr} (h : tAttr a = tAttr b) : a = b := by
  obtain ⟨n, vs⟩ := a
  obtain ⟨n', vs'⟩ := b
  simp only [tAttr, tSeq, tSet, tOct, Tlv.con.injEq, List.cons.injEq, true_and, and_true, Tlv.prim.injEq] at h
  obtain ⟨rfl, h⟩ := h
  congr 1
  exact (List.map_inj_right (fun x y h => by simpa [tOct] using h)).1 h

theorem isReply_unique {t : Tlv} {r r' : Resp} (h : IsReply t r) (h' : IsReply t r') (hs : Sendable r) (hs' : Sendable r') : r = r' := by
  cases r with
  | result id tag code =>
    obtain ⟨i, ks, rfl, h1, h2⟩ := h
    obtain ⟨hid, hcode, htag⟩ := hs
    cases r' with
    | result id' tag' code' =>
      obtain ⟨i', ks', he, h1', h2'⟩ := h'
      simp [tSeq, tReq] at he
      obtain ⟨rfl, rfl, rfl⟩ := he
      rw [isResult_code h2 h2', ← h1, h1']
    | entry id' e =>
      obtain ⟨i', he, h1'⟩ := h'
      simp [tSeq, tReq] at he
      omega
    | searchDone id' code' cs =>
      cases cs with
      | none =>
        obtain ⟨i', ks', he, h1', h2'⟩ := h'
        simp [tSeq, tReq] at he
        omega
      | some cs =>
        obtain ⟨i', ks', ts, he, h1', h2'⟩ := h'
        simp [tSeq, tReq] at he
    | extended id' code' oid pw =>
      cases pw with
      | none =>
        obtain ⟨i', ks', he, h1', h2'⟩ := h'
        simp [tSeq, tReq] at he
        obtain ⟨-, -, rfl⟩ := he
        have := isResult_length h2
        have := isResult_length h2'
        simp at *
        omega
      | some pw =>
        obtain ⟨i', ks', v, he, h1', h2', h3'⟩ := h'
        simp [tSeq, tReq] at he
        obtain ⟨-, -, rfl⟩ := he
        have := isResult_length h2
        have := isResult_length h2'
        simp at *
        omega
  | entry id e =>
    obtain ⟨i, rfl, h1⟩ := h
    cases r' with
    | result id' tag' code' =>
      obtain ⟨i', ks', he, h1', h2'⟩ := h'
      obtain ⟨-, -, htag⟩ := hs'
      simp [tSeq, tReq] at he
      omega
    | entry id' e' =>
      obtain ⟨i', he, h1'⟩ := h'
      simp only [tSeq, tReq, tOct, Tlv.con.injEq, List.cons.injEq, true_and, and_true, Tlv.prim.injEq] at he
      obtain ⟨rfl, hdn, hat⟩ := he
      rw [← h1, h1']
      congr 1
      obtain ⟨dn, as⟩ := e
      obtain ⟨dn', as'⟩ := e'
      dsimp only at hdn hat
      subst hdn
      congr 1
      exact (List.map_inj_right (fun x y h => tAttr_inj h)).1 hat
    | searchDone id' code' cs =>
      cases cs with
      | none => obtain ⟨i', ks', he, h1', h2'⟩ := h'; simp [tSeq, tReq] at he
      | some cs => obtain ⟨i', ks', ts, he, h1', h2'⟩ := h'; simp [tSeq, tReq] at he
    | extended id' code' oid pw =>
      cases pw with
      | none => obtain ⟨i', ks', he, h1', h2'⟩ := h'; simp [tSeq, tReq] at he
      | some pw => obtain ⟨i', ks', v, he, h1', h2', h3'⟩ := h'; simp [tSeq, tReq] at he
  | searchDone id code cs =>
    cases cs with
    | none =>
      obtain ⟨i, ks, rfl, h1, h2⟩ := h
      cases r' with
      | result id' tag' code' =>
        obtain ⟨i', ks', he, h1', h2'⟩ := h'
        obtain ⟨-, -, htag⟩ := hs'
        simp [tSeq, tReq] at he
        omega
      | entry id' e => obtain ⟨i', he, h1'⟩ := h'; simp [tSeq, tReq] at he
      | searchDone id' code' cs =>
        cases cs with
        | none =>
          obtain ⟨i', ks', he, h1', h2'⟩ := h'
          simp [tSeq, tReq] at he
          obtain ⟨rfl, rfl⟩ := he
          rw [isResult_code h2 h2', ← h1, h1']
        | some cs => obtain ⟨i', ks', ts, he, h1', h2'⟩ := h'; simp [tSeq, tReq] at he
      | extended id' code' oid pw =>
        cases pw with
        | none => obtain ⟨i', ks', he, h1', h2'⟩ := h'; simp [tSeq, tReq] at he
        | some pw => obtain ⟨i', ks', v, he, h1', h2', h3'⟩ := h'; simp [tSeq, tReq] at he
    | some cs =>
      obtain ⟨i, ks, ts, rfl, h1, h2, h3⟩ := h
      cases r' with
      | result id' tag' code' => obtain ⟨i', ks', he, h1', h2'⟩ := h'; simp [tSeq, tReq] at he
      | entry id' e => obtain ⟨i', he, h1'⟩ := h'; simp [tSeq, tReq] at he
      | searchDone id' code' cs' =>
        cases cs' with
        | none => obtain ⟨i', ks', he, h1', h2'⟩ := h'; simp [tSeq, tReq] at he
        | some cs' =>
          obtain ⟨i', ks', ts', he, h1', h2', h3'⟩ := h'
          simp [tSeq, tReq] at he
          obtain ⟨rfl, rfl, rfl⟩ := he
          rw [isResult_code h2 h2', ← h1, h1', areControls_unique h3 h3' (hs.2.2 _ rfl) (hs'.2.2 _ rfl)]
      | extended id' code' oid pw =>
        cases pw with
        | none => obtain ⟨i', ks', he, h1', h2'⟩ := h'; simp [tSeq, tReq] at he
        | some pw => obtain ⟨i', ks', v, he, h1', h2', h3'⟩ := h'; simp [tSeq, tReq] at he
  | extended id code oid pw =>
    cases pw with
    | none =>
      obtain ⟨i, ks, rfl, h1, h2⟩ := h
      cases r' with
      | result id' tag' code' =>
        obtain ⟨i', ks', he, h1', h2'⟩ := h'
        simp [tSeq, tReq] at he
        obtain ⟨-, -, rfl⟩ := he
        have := isResult_length h2
        have := isResult_length h2'
        simp at *
        omega
      | entry id' e => obtain ⟨i', he, h1'⟩ := h'; simp [tSeq, tReq] at he
      | searchDone id' code' cs =>
        cases cs with
        | none => obtain ⟨i', ks', he, h1', h2'⟩ := h'; simp [tSeq, tReq] at he
        | some cs => obtain ⟨i', ks', ts, he, h1', h2'⟩ := h'; simp [tSeq, tReq] at he
      | extended id' code' oid' pw =>
        cases pw with
        | none =>
          obtain ⟨i', ks', he, h1', h2'⟩ := h'
          simp only [tSeq, tReq, Tlv.con.injEq, List.cons.injEq, true_and, and_true, Tlv.prim.injEq] at he
          obtain ⟨rfl, he⟩ := he
          obtain ⟨rfl, he⟩ := List.append_inj he (by rw [isResult_length h2, isResult_length h2'])
          simp [tCtx] at he
          subst he
          rw [isResult_code h2 h2', ← h1, h1']
        | some pw =>
          obtain ⟨i', ks', v, he, h1', h2', h3'⟩ := h'
          simp only [tSeq, tReq, Tlv.con.injEq, List.cons.injEq, true_and, and_true, Tlv.prim.injEq] at he
          have := congrArg List.length he.2
          have := isResult_length h2
          have := isResult_length h2'
          simp at *
          omega
    | some pw =>
      obtain ⟨i, ks, v, rfl, h1, h2, h3⟩ := h
      cases r' with
      | result id' tag' code' =>
        obtain ⟨i', ks', he, h1', h2'⟩ := h'
        simp [tSeq, tReq] at he
        obtain ⟨-, -, rfl⟩ := he
        have := isResult_length h2
        have := isResult_length h2'
        simp at *
        omega
      | entry id' e => obtain ⟨i', he, h1'⟩ := h'; simp [tSeq, tReq] at he
      | searchDone id' code' cs =>
        cases cs with
        | none => obtain ⟨i', ks', he, h1', h2'⟩ := h'; simp [tSeq, tReq] at he
        | some cs => obtain ⟨i', ks', ts, he, h1', h2'⟩ := h'; simp [tSeq, tReq] at he
      | extended id' code' oid' pw' =>
        cases pw' with
        | none =>
          obtain ⟨i', ks', he, h1', h2'⟩ := h'
          simp only [tSeq, tReq, Tlv.con.injEq, List.cons.injEq, true_and, and_true, Tlv.prim.injEq] at he
          have := congrArg List.length he.2
          have := isResult_length h2
          have := isResult_length h2'
          simp at *
          omega
        | some pw' =>
          obtain ⟨i', ks', v', he, h1', h2', h3'⟩ := h'
          simp only [tSeq, tReq, Tlv.con.injEq, List.cons.injEq, true_and, and_true, Tlv.prim.injEq] at he
          obtain ⟨rfl, he⟩ := he
          obtain ⟨rfl, he⟩ := List.append_inj he (by rw [isResult_length h2, isResult_length h2'])
          simp [tCtx] at he
          obtain ⟨rfl, rfl⟩ := he
          have := berOf_inj h3 h3'
          simp [tSeq, tCtx] at this
          subst this
          rw [isResult_code h2 h2', ← h1, h1']

end Idm
