import Verif.Model.Ldif
import Verif.Spec.Filter
import Verif.Spec.Scope
import Verif.Spec.Name
import Verif.Spec.Wire
import Verif.Spec.Find
/-!
# Specification vocabulary for the LDIF server
-/
namespace Idm

/-- The records of a file that are entries (`ldif.Unmarshal` also returns nil records). -/
def entriesIn (recs : List (Option Entry)) : List Entry := recs.filterMap id

/-- What clients may see of an entry of the file: its DN in lower case, and its attributes except for userPassword. -/
def publicView (C : CaseEnv) (r : Entry) : Entry := ⟨C.lower r.dn, r.attrs.filter fun a => C.lower a.name ≠ b!"userpassword"⟩

/-- The entry without its password. -/
def withoutPassword (C : CaseEnv) (r : Entry) : Entry := ⟨r.dn, r.attrs.filter fun a => C.lower a.name ≠ b!"userpassword"⟩

/-- The password of an entry of the file: the first value of the last userPassword attribute. -/
def passwordOf (C : CaseEnv) (r : Entry) : Option Str :=
  ((r.attrs.filter fun a => C.lower a.name = b!"userpassword").getLast?).bind fun a => a.vals.head?

/-- The two files differ in passwords only. -/
def SameButPasswords (C : CaseEnv) (recs recs' : List (Option Entry)) : Prop :=
  recs.map (Option.map (withoutPassword C)) = recs'.map (Option.map (withoutPassword C))

instance (C : CaseEnv) (recs recs' : List (Option Entry)) : Decidable (SameButPasswords C recs recs') := by unfold SameButPasswords; infer_instance

/-! ## Names -/

/-- The text `dn` names something in scope of a search at the text `base`. -/
def TextInScope (C : CaseEnv) (scope : Nat) (base dn : Str) : Prop :=
  ∃ b n, parseDN C base = some b ∧ parseDN C dn = some n ∧ InScopeFold C scope b n

/-- A byte without special meaning in a value of a DN: printable ASCII other than `,` `+` `"` `\` `<` `>` `;` `=` `#`, and bytes of UTF-8
outside ASCII. -/
def okValByte (c : UInt8) : Bool := 32 ≤ c && c ≤ 126 && !(b!",+\"\\<>;=#").contains c || 128 ≤ c

/-- Type and value that can be written in a DN without escapes: the value is valid UTF-8 without white space around it. -/
def SimpleAva (C : CaseEnv) (a : AVA) : Prop :=
  TypeOk a.typ ∧ a.val ≠ [] ∧ (∀ c ∈ a.val, okValByte c = true) ∧ a.val.head? ≠ some chSpace ∧ a.val.getLast? ≠ some chSpace ∧
  C.utf8Fix a.val = a.val ∧ C.trimSpace a.val = a.val

instance (C : CaseEnv) (a : AVA) : Decidable (SimpleAva C a) := by unfold SimpleAva; infer_instance

/-- `type=value,type=value,...` -/
def plainText : List AVA → Str
  | [] => []
  | [a] => a.typ ++ chEq :: a.val
  | a :: as => a.typ ++ chEq :: a.val ++ chComma :: plainText as

/-- A DN written without escapes, blanks around separators, or multi-valued RDNs: as LDIF files usually have them. -/
def PlainDN (C : CaseEnv) (s : Str) (ns : List AVA) : Prop := s = plainText ns ∧ ∀ a ∈ ns, SimpleAva C a

instance (C : CaseEnv) (s : Str) (ns : List AVA) : Decidable (PlainDN C s ns) := by unfold PlainDN; infer_instance

/-- On the values of the two names, `strings.EqualFold`, by which names are compared, and `strings.ToLower`, by which texts of names are
compared, agree: on values of the first as they are and in lower case. True of ASCII. -/
def NamesAgree (C : CaseEnv) (ns nb : List AVA) : Prop := ∀ a ∈ ns, ∀ b ∈ nb,
  (C.eqFold a.val b.val = true ↔ C.lower a.val = C.lower b.val) ∧ (C.eqFold (C.lower a.val) b.val = true ↔ C.lower a.val = C.lower b.val)

instance (C : CaseEnv) (ns nb : List AVA) : Decidable (NamesAgree C ns nb) := by unfold NamesAgree; infer_instance

/-- No attribute type of the name is a longer word ending in the first attribute type of the base, as `xdc` for `dc`. -/
def NoLongerType (base ns : List AVA) : Prop :=
  ∀ b, base.head? = some b → ∀ a ∈ ns, hasSuffix (a.typ.map lowerByte) (b.typ.map lowerByte) = true → a.typ.map lowerByte = b.typ.map lowerByte

instance (base ns : List AVA) : Decidable (NoLongerType base ns) := by
  unfold NoLongerType
  cases base with
  | nil => exact .isTrue (by simp)
  | cons b bs =>
    exact decidable_of_iff (∀ a ∈ ns, hasSuffix (a.typ.map lowerByte) (b.typ.map lowerByte) = true → a.typ.map lowerByte = b.typ.map lowerByte)
      (by simp)

/-- For a search with this scope at the text `base`, the text of the name `dn` tells as much as the name itself. Texts of names are compared in
lower case. If the name is in scope then its text ends in that of the base. If its text does, then it is read as a name also in lower case,
and this does not change whether it is in scope; in a subtree search the name is below the base; in a one-level search the first comma of the
text ends the first RDN. True of names written plainly (`C39_plain_names`), of names whose first RDN is written with escapes or has several
attributes (`C39_escaped_names`), and of entries elsewhere (`C39_elsewhere`). -/
def TextTells (C : CaseEnv) (scope : Nat) (base dn : Str) : Prop :=
  (TextInScope C scope base dn → hasSuffix (C.lower dn) (C.lower base) = true) ∧
  (hasSuffix (C.lower dn) (C.lower base) = true →
    (∃ n, parseDN C (C.lower dn) = some n) ∧ (scope = 2 → TextInScope C 2 base dn) ∧
    (scope ≠ 2 → (TextInScope C scope base (C.lower dn) ↔ TextInScope C scope base dn)) ∧ (scope = 1 → PlainFirst (C.lower dn)))

/-! ## Which filters an index can answer -/

mutual
/-- The comparisons outside of negations, with the kind of index that could answer them. -/
def comparisons : Filter → List (Str × IdxKind)
  | .and fs => comparisonsAll fs
  | .or fs => comparisonsAll fs
  | .not _ => []
  | .eq a _ => [(a, .eq)]
  | .sub a .. => [(a, .sub)]
  | .present a => [(a, .pres)]
  | .cmp .. => []
  | .ext .. => []
def comparisonsAll : List Filter → List (Str × IdxKind)
  | [] => []
  | f :: fs => comparisons f ++ comparisonsAll fs
end

/-- The comparisons that are looked up: those of objectClass are not if there are others. -/
def lookedUp (C : CaseEnv) (f : Filter) : List (Str × IdxKind) :=
  if (comparisons f).all (fun p => C.eqFold b!"objectClass" p.1) then comparisons f
  else (comparisons f).filter fun p => !C.eqFold b!"objectClass" p.1

mutual
/-- Every entry that satisfies the filter satisfies one of the comparisons with attributes `use`; initial and final substrings count only
if `ends`. -/
def Covers (ends : Bool) (use : Str → Bool) : Filter → Bool
  | .and fs => CoversSome ends use fs
  | .or fs => CoversAll ends use fs
  | .not _ => false
  | .eq a _ => use a
  | .sub a none [_] none => use a
  | .sub a .. => ends && use a
  | .present a => use a
  | .cmp .. => false
  | .ext .. => false
def CoversSome (ends : Bool) (use : Str → Bool) : List Filter → Bool
  | [] => false
  | f :: fs => Covers ends use f || CoversSome ends use fs
def CoversAll (ends : Bool) (use : Str → Bool) : List Filter → Bool
  | [] => true
  | f :: fs => Covers ends use f && CoversAll ends use fs
end

mutual
/-- A substring filter with several components occurs outside of negations. -/
def SeveralComponents : Filter → Bool
  | .and fs => SeveralSome fs
  | .or fs => SeveralSome fs
  | .sub _ i m f => (components i m f).length > 1
  | _ => false
def SeveralSome : List Filter → Bool
  | [] => false
  | f :: fs => SeveralComponents f || SeveralSome fs
end

/-- No entry is lost by using the indexes: nothing is looked up, or a substring filter has several components, or there is no index for one of the
comparisons (in these cases all entries are gone through), or the comparisons looked up cover the filter. -/
def NoneLost (C : CaseEnv) (idx : IdxAttrs) (ends : Bool) (f : Filter) : Bool :=
  (lookedUp C f).isEmpty || SeveralComponents f || (lookedUp C f).any (fun p => !indexed C idx (C.lower p.1) p.2) ||
    Covers ends (fun a => (lookedUp C f).any fun p => p.1 = a) f

mutual
/-- The initial (tag 0) and final (tag 2) substrings in a filter, with their attributes. -/
def subEnds : Filter → List (Str × Nat × Str)
  | .and fs => subEndsAll fs
  | .or fs => subEndsAll fs
  | .not _ => []
  | .sub a i m f => ((components i m f).filter fun c => c.1 ≠ 1).map fun c => (a, c)
  | _ => []
def subEndsAll : List Filter → List (Str × Nat × Str)
  | [] => []
  | f :: fs => subEnds f ++ subEndsAll fs
end

/-- Values of the entry that start (end) as the filter asks up to case do so in the case of the filter. -/
def EndsAgree (C : CaseEnv) (r : Entry) (f : Filter) : Prop :=
  ∀ p ∈ subEnds f, ∀ a ∈ r.attrs, C.eqFold a.name p.1 = true → ∀ v ∈ a.vals,
    (p.2.1 = 0 → hasPrefix (C.fold v) (C.fold p.2.2) = true → hasPrefix v p.2.2 = true) ∧
    (p.2.1 = 2 → hasSuffix (C.fold v) (C.fold p.2.2) = true → hasSuffix v p.2.2 = true)

mutual
/-- The attribute names and values of a filter. -/
def filterWords : Filter → List Str
  | .and fs => filterWordsAll fs
  | .or fs => filterWordsAll fs
  | .not f => filterWords f
  | .eq a v => [a, v]
  | .sub a .. => [a]
  | .present a => [a]
  | .cmp _ a v => [a, v]
  | .ext .. => []
def filterWordsAll : List Filter → List Str
  | [] => []
  | f :: fs => filterWords f ++ filterWordsAll fs
end

/-- Words of the data that equal a word of the filter up to case also have the same lower case. This holds of all ASCII words. -/
def CaseAgrees (C : CaseEnv) (r : Entry) (f : Filter) : Prop :=
  ∀ w ∈ filterWords f, ∀ a ∈ r.attrs, (C.eqFold a.name w = true → C.lower a.name = C.lower w) ∧
    ∀ v ∈ a.vals, C.eqFold v w = true → C.lower v = C.lower w

/-! ## Searches -/

/-- A message with controls. -/
def wMsgC (id : Int) (req : Packet) (controls : List Packet) : Packet :=
  wSeq [berInt id, req, .mk .context true 0 .nil (controls.flatMap berBytes) controls]

/-- Who may search: clients bound to a name that ends in the base DN; anonymous ones if that is allowed, from a loopback address. -/
def MayRead (C : CaseEnv) (cfg : LdifCfg) (bound : Str) : Prop :=
  (bound = [] ∧ cfg.anon = true ∧ cfg.loopback = true) ∨ (C.lower bound ≠ [] ∧ hasSuffix (C.lower bound) cfg.base = true)

/-- The password opens the entry of the file. -/
def Opens (C : CaseEnv) (K : CryptoEnv) (r : Entry) (pw : Str) : Prop := ∃ h, passwordOf C r = some h ∧ validatePw C K pw h = .ok true

/-- Who may bind at a server with these data and no config file: names that end in the base DN; the empty name if anonymous access is
allowed, from a loopback address. The password must open an entry of that name; the empty name without password needs none. -/
def LdifMayBind (C : CaseEnv) (K : CryptoEnv) (cfg : LdifCfg) (recs : List (Option Entry)) (dn pw : Str) : Prop :=
  (if C.lower dn = [] then cfg.anon = true ∧ cfg.loopback = true else hasSuffix (C.lower dn) cfg.base = true) ∧
  ((C.lower dn = [] ∧ pw = []) ∨ (pw ≠ [] ∧ ∃ r ∈ entriesIn recs, C.lower r.dn = C.lower dn ∧ Opens C K r pw))

/-- The same with a config file: its entries go before those of the data, for binds with a password. -/
def ConfMayBind (C : CaseEnv) (K : CryptoEnv) (cfg : LdifCfg) (recs confRecs : List (Option Entry)) (dn pw : Str) : Prop :=
  if pw ≠ [] ∧ ∃ r ∈ entriesIn confRecs, C.lower r.dn = C.lower dn then
    hasSuffix (C.lower dn) (C.lower cfg.optBase) = true ∧ ∃ r ∈ entriesIn confRecs, C.lower r.dn = C.lower dn ∧ Opens C K r pw
  else LdifMayBind C K cfg recs dn pw

/-- The data files of the server as they were loaded one after the other (the last one first), and the states of the server that can come
about: any clients (from loopback addresses or not), any packets, any random cookies, any timing of paged searches; the config file may
change at any time. -/
inductive LdifReach (V : Env) (W : WalkOrd) (cfg : LdifCfg) (genPwLen : Nat) (stats : Bool) :
    List (List (Option Entry)) → LdifSt → Prop
  | start (recs : List (Option Entry)) (m conf : LMem) (cookie : Nat → Str) (cut : Nat → Option Nat) (inTime : Nat → Bool) :
      treeFromLDIF V.C cfg.idx recs = some m → LdifReach V W cfg genPwLen stats [recs] ⟨m, conf, [], cookie, cut, 0, inTime, 0⟩
  | packet (versions) (st : LdifSt) (o : Oracle) (p : Packet) (bound : Str) (local_ : Bool) :
      LdifReach V W cfg genPwLen stats versions st →
      LdifReach V W cfg genPwLen stats versions (handlePacket V (ldifSrv V W { cfg with loopback := local_ } genPwLen stats) o p bound st).st
  | reload (versions) (st : LdifSt) (recs : List (Option Entry)) (m : LMem) :
      LdifReach V W cfg genPwLen stats versions st → treeFromLDIF V.C cfg.idx recs = some m →
      LdifReach V W cfg genPwLen stats (recs :: versions) { st with main := m }
  | conf (versions) (st : LdifSt) (m : LMem) :
      LdifReach V W cfg genPwLen stats versions st → LdifReach V W cfg genPwLen stats versions { st with conf := m }

/-- Two servers side by side, with the same random numbers and timings, whose data files differ in passwords only (and whose config files differ
in any way): the same packets come from clients bound to the same names, and they reload at the same time. -/
inductive LdifTwins (V : Env) (W : WalkOrd) (cfg : LdifCfg) (genPwLen : Nat) (stats : Bool) : LdifSt → LdifSt → Prop
  | start (recs recs' : List (Option Entry)) (m m' conf conf' : LMem) (cookie : Nat → Str) (cut : Nat → Option Nat) (inTime : Nat → Bool) :
      SameButPasswords V.C recs recs' → treeFromLDIF V.C cfg.idx recs = some m → treeFromLDIF V.C cfg.idx recs' = some m' →
      LdifTwins V W cfg genPwLen stats ⟨m, conf, [], cookie, cut, 0, inTime, 0⟩ ⟨m', conf', [], cookie, cut, 0, inTime, 0⟩
  | packet (st st' : LdifSt) (o : Oracle) (p : Packet) (bound : Str) (local_ : Bool) :
      LdifTwins V W cfg genPwLen stats st st' →
      LdifTwins V W cfg genPwLen stats (handlePacket V (ldifSrv V W { cfg with loopback := local_ } genPwLen stats) o p bound st).st
        (handlePacket V (ldifSrv V W { cfg with loopback := local_ } genPwLen stats) o p bound st').st
  | reload (st st' : LdifSt) (recs recs' : List (Option Entry)) (m m' : LMem) :
      LdifTwins V W cfg genPwLen stats st st' → SameButPasswords V.C recs recs' →
      treeFromLDIF V.C cfg.idx recs = some m → treeFromLDIF V.C cfg.idx recs' = some m' →
      LdifTwins V W cfg genPwLen stats { st with main := m } { st' with main := m' }
  | conf (st st' : LdifSt) (m m' : LMem) :
      LdifTwins V W cfg genPwLen stats st st' → LdifTwins V W cfg genPwLen stats { st with conf := m } { st' with conf := m' }

/-- The search returns the entry: filter and scope hold of what the server shows of it, as the server decides them (C29 and C30 say how). -/
def kept (C : CaseEnv) (fp : Packet) (r : SearchReq) (x : LEntry) : Bool :=
  decide (applyFilter C x.visible fp = .ok (true, rcSuccess)) && decide (filterScope C r.baseDN (scopeNat r.scope) x.visible = (true, rcSuccess))

end Idm
