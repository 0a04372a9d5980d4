import Verif.Model.Server
/-!
# `/repo/pkg/ldapserver/server.go` as a library: a new server and the registration of handlers

A Go map is a list of pairs of key and value with pairwise different keys; its iteration order is any order of the list.
-/
namespace Idm

/-- Assignment to a key of a Go map. -/
def register {α : Type} (k : Str) (f : α) (fns : List (Str × α)) : List (Str × α) :=
  if fns.any fun p => p.1 = k then fns.map fun p => if p.1 = k then (k, f) else p else fns ++ [(k, f)]

section
variable {σ : Type}

/-- `defaultHandler.Bind`, server.go:480-482. -/
def defaultBind (_ _ : Str) : Act σ (Nat × Bool) := fun st => (.ok (rcInvalidCredentials, false), st)

/-- `defaultHandler.Search`, server.go:484-486. -/
def defaultSearch (_ : Str) (_ : SearchReq) : Act σ SearchRes := fun st => (.ok ⟨[], [], rcSuccess, false⟩, st)

/-- The call of the close handlers at the end of a connection, server.go:433-435. -/
def closeAll (fns : List (Str × (Str → σ → σ))) (bound : Str) (st : σ) : σ := fns.foldl (fun st p => p.2 bound st) st

/-- `NewServer`, server.go:80-99. `EnforceLDAP` is false. The default close handler (488-491) closes the connection, which is closed anyway. -/
def freshServer : Srv σ :=
  { addFns := [], bindFns := register [] defaultBind [], deleteFns := [], modifyFns := [], modifyDNFns := [], pwExopFns := [],
    searchFns := register [] defaultSearch [], close := closeAll [], enforce := false, genPwLen := 16, stats := false }

/-- `AddFunc`, server.go:105-107. -/
def Srv.addFunc (srv : Srv σ) (base : Str) (f : Str → AddReq → Act σ (Nat × Bool)) : Srv σ := { srv with addFns := register base f srv.addFns }

/-- `BindFunc`, server.go:109-111. -/
def Srv.bindFunc (srv : Srv σ) (base : Str) (f : Str → Str → Act σ (Nat × Bool)) : Srv σ := { srv with bindFns := register base f srv.bindFns }

/-- `DeleteFunc`, server.go:113-115. -/
def Srv.deleteFunc (srv : Srv σ) (base : Str) (f : Str → Str → Act σ (Nat × Bool)) : Srv σ := { srv with deleteFns := register base f srv.deleteFns }

/-- `ModifyFunc`, server.go:117-119. -/
def Srv.modifyFunc (srv : Srv σ) (base : Str) (f : Str → ModifyReq → Act σ (Nat × Bool)) : Srv σ :=
  { srv with modifyFns := register base f srv.modifyFns }

/-- `ModifyDNFunc`, server.go:121-123. -/
def Srv.modifyDNFunc (srv : Srv σ) (base : Str) (f : Str → ModifyDNReq → Act σ (Nat × Bool)) : Srv σ :=
  { srv with modifyDNFns := register base f srv.modifyDNFns }

/-- `PasswordExOpFunc`, server.go:125-127. -/
def Srv.pwExopFunc (srv : Srv σ) (base : Str) (f : Str → PwModReq → Act σ (Nat × Bool)) : Srv σ :=
  { srv with pwExopFns := register base f srv.pwExopFns }

/-- `SearchFunc`, server.go:129-131. -/
def Srv.searchFunc (srv : Srv σ) (base : Str) (f : Str → SearchReq → Act σ SearchRes) : Srv σ :=
  { srv with searchFns := register base f srv.searchFns }

end
end Idm
