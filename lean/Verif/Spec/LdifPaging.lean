import Verif.Spec.Ldif
/-!
# Specification vocabulary for paged searches on the LDIF server
-/
namespace Idm

/-- The controls of a message. -/
def controlsOf (p : Packet) : List Packet :=
  match p.kids with
  | _ :: _ :: c :: _ => c.kids
  | _ => []

/-- The message asks for a page of the search with this cookie. -/
def Presents (V : Env) (p : Packet) (k : Str) : Prop := ∃ c ∈ controlsOf p, ∃ n, V.control c = .ok (.paging n k)

section
variable (V : Env) (W : WalkOrd) (cfg : LdifCfg) (genPwLen : Nat) (stats : Bool)

/-- The server, for a client with or without a loopback address. -/
def ldifSrvAt (local_ : Bool) : Srv LdifSt := ldifSrv V W { cfg with loopback := local_ } genPwLen stats

/-- What may happen between two pages: packets of any clients that do not present the cookie; the data or the config file is replaced. -/
inductive Meanwhile (k : Str) : LdifSt → LdifSt → Prop
  | nothing (st) : Meanwhile k st st
  | packet (st st') (o : Oracle) (p : Packet) (bound : Str) (local_ : Bool) : Meanwhile k st st' → ¬ Presents V p k →
      Meanwhile k st (handlePacket V (ldifSrvAt V W cfg genPwLen stats local_) o p bound st').st
  | reload (st st') (m : LMem) : Meanwhile k st st' → Meanwhile k st { st' with main := m }
  | conf (st st') (m : LMem) : Meanwhile k st st' → Meanwhile k st { st' with conf := m }

/-- The answer to a search: these entries, success, and a paging control with this cookie. -/
def pageAnswer (id : Int) (es : List Entry) (k : Str) : List Resp := es.map (.entry id) ++ [.searchDone id 0 (some [.paging 0 k])]

/-- A client asks for the same search page by page: at first without a cookie, then with the cookie of the last answer. `ctl k` is the paging
control with cookie `k`. From the state `st0` it has come to the state with these pages and this last cookie. -/
inductive PagesGot (req : Packet) (ctl : Str → Packet) (st0 : LdifSt) : LdifSt → List (List Entry) → Str → Prop
  | first (o : Oracle) (id : Int) (bound : Str) (local_ : Bool) (es : List Entry) (k : Str) :
      (handlePacket V (ldifSrvAt V W cfg genPwLen stats local_) o (wMsgC id req [ctl []]) bound st0).resps = pageAnswer id es k →
      PagesGot req ctl st0 (handlePacket V (ldifSrvAt V W cfg genPwLen stats local_) o (wMsgC id req [ctl []]) bound st0).st [es] k
  | next (st st' : LdifSt) (pages : List (List Entry)) (k : Str) (o : Oracle) (id : Int) (bound : Str) (local_ : Bool) (es : List Entry) (k' : Str) :
      PagesGot req ctl st0 st pages k → k ≠ [] → Meanwhile V W cfg genPwLen stats k st st' →
      (handlePacket V (ldifSrvAt V W cfg genPwLen stats local_) o (wMsgC id req [ctl k]) bound st').resps = pageAnswer id es k' →
      PagesGot req ctl st0 (handlePacket V (ldifSrvAt V W cfg genPwLen stats local_) o (wMsgC id req [ctl k]) bound st').st (pages ++ [es]) k'

end
end Idm
