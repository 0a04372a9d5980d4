import Verif.Model.Ber
import Verif.Model.DN
/-!
# Filter text: go-ldap's `DecompileFilter`, `EscapeFilter` and `CompileFilter`

go-ldap v3.4.11 (`filter.go`) is a dependency whose source is not in /repo; `/repo/pkg/ldapserver/filter.go:40-46` and
`search.go:25,132` call it: a search filter is turned into text when the request is parsed and compiled again before it is applied. The
functions are modelled from its published source.
-/
namespace Idm

def chLPar : UInt8 := 40
def chRPar : UInt8 := 41
def chStar : UInt8 := 42
def chAmp : UInt8 := 38
def chBar : UInt8 := 124
def chBang : UInt8 := 33
def chColon : UInt8 := 58
def chGt : UInt8 := 62
def chLt : UInt8 := 60
def chTilde : UInt8 := 126

/-- `mustEscape`. -/
def mustEscape (c : UInt8) : Bool := c > 127 || c == chLPar || c == chRPar || c == chBackslash || c == chStar || c == 0

/-- `EscapeFilter`. -/
def escapeFilter (s : Str) : Str :=
  s.flatMap fun c => if mustEscape c then [chBackslash, hexDigit (c / 16), hexDigit (c % 16)] else [c]

/-- The loop over the substring components in `DecompileFilter`; `first`: `i == 0`. -/
def decompileSubs : (first : Bool) → List Packet → Str
  | _, [] => []
  | first, c :: cs =>
    (if first && c.tag ≠ 0 then [chStar] else []) ++ escapeFilter c.data ++ (if c.tag ≠ 2 then [chStar] else []) ++ decompileSubs false cs

/-- `DecompileFilter`, extensible match: matching rule 1, type 2, value 3, dnAttributes 4. A `dnAttributes` that is not a boolean is a
panic, which `DecompileFilter` turns into an error. -/
def decompileExt : (attr rule val : Str) → (dn : Bool) → List Packet → Option Str
  | attr, rule, val, dn, [] =>
    some (attr ++ (if dn then b!":dn" else []) ++ (if rule = [] then [] else chColon :: rule) ++ b!":=" ++ escapeFilter val)
  | attr, rule, val, dn, c :: cs =>
    if c.tag = 1 then decompileExt attr c.data val dn cs
    else if c.tag = 2 then decompileExt c.data rule val dn cs
    else if c.tag = 3 then decompileExt attr rule c.data dn cs
    else if c.tag = 4 then match c.val with
      | .bool b => decompileExt attr rule val b cs
      | _ => none
    else decompileExt attr rule val dn cs

mutual
/-- `DecompileFilter`. Index errors are panics that it turns into an error (`none`). Unknown tags give `()`. -/
def decompile : Packet → Option Str
  | .mk _ _ tag _ data kids =>
    if tag = 0 then do
      let s ← decompileAll kids
      some (b!"(&" ++ s ++ b!")")
    else if tag = 1 then do
      let s ← decompileAll kids
      some (b!"(|" ++ s ++ b!")")
    else if tag = 2 then match kids with
      | [] => none
      | k :: _ => do
        let s ← decompile k
        some (b!"(!" ++ s ++ b!")")
    else if tag = 4 then match kids with
      | a :: s :: _ => some (b!"(" ++ a.data ++ b!"=" ++ decompileSubs true s.kids ++ b!")")
      | _ => none
    else if tag = 3 then match kids with
      | a :: v :: _ => some (b!"(" ++ a.data ++ b!"=" ++ escapeFilter v.data ++ b!")")
      | _ => none
    else if tag = 5 then match kids with
      | a :: v :: _ => some (b!"(" ++ a.data ++ b!">=" ++ escapeFilter v.data ++ b!")")
      | _ => none
    else if tag = 6 then match kids with
      | a :: v :: _ => some (b!"(" ++ a.data ++ b!"<=" ++ escapeFilter v.data ++ b!")")
      | _ => none
    else if tag = 7 then some (b!"(" ++ data ++ b!"=*)")
    else if tag = 8 then match kids with
      | a :: v :: _ => some (b!"(" ++ a.data ++ b!"~=" ++ escapeFilter v.data ++ b!")")
      | _ => none
    else if tag = 9 then do
      let s ← decompileExt [] [] [] false kids
      some (b!"(" ++ s ++ b!")")
    else some b!"()"
def decompileAll : List Packet → Option Str
  | [] => some []
  | p :: ps => do
    let s ← decompile p
    let t ← decompileAll ps
    some (s ++ t)
end

/-- UTF-8 text without U+FFFD: what the rune loops of `CompileFilter` accept (`utf8.RuneError` is U+FFFD). -/
def utf8Good : Str → Bool
  | [] => true
  | a :: rest =>
    if a < 0x80 then utf8Good rest
    else match rest with
      | [] => false
      | b :: rest =>
        if 0xC2 ≤ a && a ≤ 0xDF then 0x80 ≤ b && b ≤ 0xBF && utf8Good rest
        else match rest with
          | [] => false
          | c :: rest =>
            if 0xE0 ≤ a && a ≤ 0xEF then
              (if a = 0xE0 then 0xA0 else 0x80) ≤ b && b ≤ (if a = 0xED then 0x9F else 0xBF) && 0x80 ≤ c && c ≤ 0xBF &&
                !(a = 0xEF && b = 0xBF && c = 0xBD) && utf8Good rest
            else match rest with
              | [] => false
              | d :: rest =>
                0xF0 ≤ a && a ≤ 0xF4 && (if a = 0xF0 then 0x90 else 0x80) ≤ b && b ≤ (if a = 0xF4 then 0x8F else 0xBF) &&
                  0x80 ≤ c && c ≤ 0xBF && 0x80 ≤ d && d ≤ 0xBF && utf8Good rest

/-- `decodeEscapedSymbols`: `\xx` stands for a byte. -/
def decodeEscapes : Str → Option Str
  | [] => some []
  | c :: cs =>
    if c = chBackslash then
      match cs with
      | x :: y :: rest => match hexVal x, hexVal y with
        | some h, some l => do
          let t ← decodeEscapes rest
          some ((h * 16 + l) :: t)
        | _, _ => none
      | _ => none
    else do
      let t ← decodeEscapes cs
      some (c :: t)

/-- Variables of the default case of `compileFilter`. `mode`: 0 reading the attribute, 1 the matching rule, 2 the condition; `tag`: the
filter packet, if made; `skip`: bytes that `newPos` has jumped over. -/
structure ItemSt where
  mode : Nat := 0
  tag : Option Nat := none
  attr : Str := []
  dn : Bool := false
  rule : Str := []
  cond : Str := []
  skip : Nat := 0

/-- One round of the item loop of `compileFilter` at the remaining text `s`, whose first byte is `c`; the first byte itself is consumed
by the caller. (Runes of several bytes are appended byte by byte.) -/
def itemStep (st : ItemSt) (c : UInt8) (s : Str) : ItemSt :=
  if st.mode = 0 then
    if hasPrefix s b!":dn:=" then { st with tag := some 9, dn := true, mode := 2, skip := 4 }
    else if hasPrefix s b!":dn:" then { st with tag := some 9, dn := true, mode := 1, skip := 3 }
    else if hasPrefix s b!":=" then { st with tag := some 9, mode := 2, skip := 1 }
    else if c = chColon then { st with tag := some 9, mode := 1 }
    else if c = chEq then { st with tag := some 3, mode := 2 }
    else if hasPrefix s b!">=" then { st with tag := some 5, mode := 2, skip := 1 }
    else if hasPrefix s b!"<=" then { st with tag := some 6, mode := 2, skip := 1 }
    else if hasPrefix s b!"~=" then { st with tag := some 8, mode := 2, skip := 1 }
    else { st with attr := st.attr ++ [c] }
  else if st.mode = 1 then
    if hasPrefix s b!":=" then { st with mode := 2, skip := 1 } else { st with rule := st.rule ++ [c] }
  else { st with cond := st.cond ++ [c] }

/-- The item loop: stops at `)` and returns what follows it; reaching the end of the text is an error. -/
def itemLoop : ItemSt → Str → Option (ItemSt × Str)
  | _, [] => none
  | st, c :: cs =>
    if st.skip > 0 then itemLoop { st with skip := st.skip - 1 } cs
    else if c = chRPar then some (st, cs)
    else itemLoop (itemStep st c (c :: cs)) cs

/-- `bytes.Split(s, "*")`. -/
def splitStar : Str → List Str
  | [] => [[]]
  | c :: cs =>
    if c = chStar then [] :: splitStar cs
    else match splitStar cs with
      | [] => [[c]]
      | p :: ps => (c :: p) :: ps

/-- `ber.NewString` with context class: the value is kept beside the data. -/
def ctxNew (tag : Nat) (s : Str) : Packet := .mk .context false tag (.str s) s []

/-- The substring loop: parts that are not empty, tagged by their position; `i` is the index, `n` the number of parts. -/
def subParts (n : Nat) : (i : Nat) → List Str → Option (List Packet)
  | _, [] => some []
  | i, p :: ps =>
    if p = [] then subParts n (i + 1) ps
    else do
      let v ← decodeEscapes p
      let rest ← subParts n (i + 1) ps
      some (ctxNew (if i = 0 then 0 else if i + 1 = n then 2 else 1) v :: rest)

/-- The packet made of an item. -/
def itemPacket (st : ItemSt) : Option Packet :=
  match st.tag with
  | none => none
  | some 9 => do
    let v ← decodeEscapes st.cond
    some (.mk .context true 9 .nil [] ((if st.rule = [] then [] else [ctxNew 1 st.rule]) ++
      (if st.attr = [] then [] else [ctxNew 2 st.attr]) ++ [ctxNew 3 v] ++
      (if st.dn then [.mk .context false 4 (.bool true) [] []] else [])))
  | some t =>
    if t = 3 ∧ st.cond = [chStar] then some (ctxNew 7 st.attr)
    else if t = 3 ∧ chStar ∈ st.cond then do
      let ps ← subParts (splitStar st.cond).length 0 (splitStar st.cond)
      some (.mk .context true 4 .nil [] [octet st.attr, .mk .universal true tagSequence .nil [] ps])
    else do
      let v ← decodeEscapes st.cond
      some (.mk .context true t .nil [] [octet st.attr, octet v])

mutual
/-- `compileFilter` on the text after an opening parenthesis: the packet and the text after the closing one. The first argument bounds
the recursion; the length of the text plus one suffices, every call consumes a byte. Where the code skips a byte without looking at it
and thereby leaves the text, the compilation fails in the end; here it fails at once. -/
def compileAt : Nat → Str → Option (Packet × Str)
  | 0, _ => none
  | _ + 1, [] => none
  | n + 1, c :: cs =>
    if c = chLPar then do
      let (p, rest) ← compileAt n cs
      match rest with
      | [] => none
      | _ :: rest => some (p, rest)
    else if c = chAmp then do
      let (ps, rest) ← compileSet n cs
      some (.mk .context true 0 .nil [] ps, rest)
    else if c = chBar then do
      let (ps, rest) ← compileSet n cs
      some (.mk .context true 1 .nil [] ps, rest)
    else if c = chBang then do
      let (p, rest) ← compileAt n cs
      some (.mk .context true 2 .nil [] [p], rest)
    else do
      let (st, rest) ← itemLoop {} (c :: cs)
      let p ← itemPacket st
      some (p, rest)
/-- `compileFilterSet`. -/
def compileSet : Nat → Str → Option (List Packet × Str)
  | 0, _ => none
  | _ + 1, [] => none
  | n + 1, c :: cs =>
    if c = chLPar then do
      let (p, rest) ← compileAt n cs
      let (ps, rest) ← compileSet n rest
      some (p :: ps, rest)
    else some ([], cs)
end

/-- `CompileFilter`. -/
def compile (s : Str) : Option Packet :=
  if utf8Good s then
    match s with
    | c :: cs => if c = chLPar then
        match compileAt (s.length + 1) cs with
        | some (p, []) => some p
        | _ => none
      else none
    | [] => none
  else none

example : compile b!"(&(objectClass=person)(|(cn=a*b*c)(!(uid=x\\2ay)))(mail=*))" ≠ none := by decide +kernel
example : (compile b!"(cn=**)").map (fun p => p.kids.map (fun k => k.kids.length)) = some [0, 0] := by decide +kernel

end Idm
