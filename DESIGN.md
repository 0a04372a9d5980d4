# Formal model of libregraph/idm in Lean 4

Everything below describes `/verif/lean/Verif`. The source modelled is `/repo` (libregraph/idm at the pinned commit).

## 1. Approach

The Go code is modelled function by function as total, computable Lean functions. Layout:

* `Verif/Model/*`  – the model; every definition cites the Go file and lines it models and says what is simplified.
* `Verif/Spec/*`   – small independent specifications (abstract directory map, filter semantics, ...) that do not use model helpers.
* `Verif/Proofs/*` – helper lemmas and invariants.
* `Verif/Props/*`  – the property theorems, named after the property (`C04_...`), each with an `example` showing that a concrete
  non-trivial case meets its hypotheses. Where a property is *false* of the code there is a theorem `..._fails`
  (a kernel-checked counterexample in the model) next to a `..._partial` theorem saying what does hold.

Go strings and `[]byte` are `List UInt8`. `error` results are values, a Go panic (index out of range, nil dereference, failed
type assertion) is the explicit outcome `Res.panic`. Maps with random iteration order are lists in *arbitrary* order
(theorems quantify over permutations). Goroutines/channels/locks are state machines over explicit steps; theorems quantify over
all step sequences.

## 2. Trusted base

* Lean 4.33.0 kernel. Axioms: only `propext`, `Classical.choice`, `Quot.sound`; section 5 says how this is checked. Only Lean core is
  imported, no Mathlib.
* The faithfulness of the model to the Go code (by reading; nothing is compiled or run).
* Behaviour of dependencies, which are not available in the sandbox and are modelled from their documented behaviour:
  - go-ldap v3 `ParseDN`, `DN.EqualFold`, `Entry.GetEqualFoldAttributeValue(s)`, `NewEntry`, `NewError`, `CompileFilter`, `DecompileFilter`:
    modelled concretely (byte level parser for DNs and for filter texts). `#hex` BER values are decoded by an abstract function.
  - go-ldap/ldif `Unmarshal`, `AllEntries`, `ToLDIF`, `Marshal` and base64: modelled on bytes (`Model/LdifFormat`) from documentation, RFC 2849 and memory
    of the source. What that leaves open is a parameter (`LdifLib`: width of lines, which values are put in base64, which attribute types are
    accepted, values from URLs, lines without a value, change records, whether `AllEntries` skips nil records). The theorems assume only
    `LdifLib.Lawful` of it: lines have room for two bytes, values with unprintable bytes are put in base64, attribute types of RFC 2849 are accepted.
  - `golang.org/x/text/cases.Fold`, `strings.EqualFold`, `strings.ToLower`, `strings.ToUpper`, `strings.TrimSpace`: abstract functions with the laws stated in
    `Model/Fold.lean` (idempotence, equivalence relation, behaviour on ASCII bytes, also amid other bytes; lower case of valid UTF-8 without white space around it
    is such text again). An ASCII instance shows that the laws are satisfiable. `strings.TrimSpace` is also modelled concretely (`Model/Space`, used by
    newusers and passwd); `Props/SpaceLaws` proves that it satisfies the laws assumed of it.
  - bbolt: `Update` is an atomic transaction, rolled back if the function returns an error or panics; `View` sees a snapshot; one writer at
    a time; `Put` refuses empty keys and keys longer than 32768 bytes; `NextSequence` is transactional. The atomicity of the commit itself is
    the assumption under C09.
  - encoding/gob: `decode (encode e) = e`, decoding an empty buffer fails (abstract functions with these laws; an instance is given).
  - argon2id, crypt(3), SHA-1, base64, the random source: abstract functions with the laws stated where used
    (`compare p (create p r) = true`).
  - go-asn1-ber `ReadPacket`, `DecodePacket`, `Packet.Bytes` and go-ldap `DecodeControl`, `ControlPaging.Encode`: modelled on bytes (`Model/Wire`) from their
    published source; types that LDAP does not use and other controls are arbitrary functions. All other theorems speak of the packet trees the reader
    delivers; C77 connects the two. The exhaustion of the stack by deeply nested packets is outside C27.
  - go-suffix-tree / go-radix: a finite map from byte strings with exact get, insert and walk over all keys with the given suffix/prefix, in an
    arbitrary order.
  - `sync.Mutex`/`sync.RWMutex`, channels and `select`: explicit steps; `select` takes any ready branch; `signal.Notify` does not block and drops a
    signal that finds the buffer full; `sync.Once`, `WaitGroup` as documented.
  - `bufio.Scanner` with `ScanLines`: lines, carriage return dropped, stops with an error at a token of 64 KiB. `path/filepath` `Join`, `Abs`, `Clean`: lexical,
    Unix. `strconv.ParseInt` in base 10, `fmt.Fprintf` without operands.
  - text/template: a parameter (any function of directory, variables, counter and text) everywhere but in C105, where it is assumed to agree with
    `Model/TemplateLang` on the templates made of the actions modelled there (`GoEngine`).

Modelled (all in `Verif/Model`):

| module | Go code |
|--------|---------|
| `Fold`, `DN` | pkg/ldapdn; go-ldap ParseDN |
| `Entry` | pkg/ldapentry (ApplyModify and helpers, EntryFromAddRequest) |
| `Bolt`, `Txn`, `Conc` | pkg/ldbbolt: every exported operation; transactions as single writes; concurrent callers |
| `Password` | pkg/ldappassword |
| `Wire` | go-asn1-ber reader; encoding of responses (server.go, bind.go, search.go, extended.go); `handleConnection` on bytes |
| `Ber`, `Filter`, `FilterText` | packet trees; pkg/ldapserver/filter.go; go-ldap filter texts |
| `Server`, `World` | pkg/ldapserver: all request handlers, routing, sessions; any number of connections, packets one at a time |
| `Parallel` | the same server with the BoltDB handlers and overlapping packets: every goroutine in small steps, the transactions of `Conc` |
| `BoltHandler` | server/handler/boltdb |
| `Ldif`, `Paging` | server/handler/ldif (tree, index, search, pump, bind, reload, config middleware); producer and consumers step by step |
| `LdifParallel` | the server with the LDIF handler and overlapping packets: goroutines of connections, producers and reloads in small steps |
| `LdifFormat` | go-ldap/ldif reading and writing; `parseLDIFFile`, `parseLDIFDirectory` of server/handler/ldif |
| `Router` | pkg/ldapserver: NewServer, default handlers, registration of handlers |
| `Load`, `Commands` | cmd/idmd: boltdb load and export; options, database file and its lock, exit codes of these and of gen newusers |
| `Stats` | pkg/ldapserver statistics, with the lock as steps |
| `Template` | server/handler/ldif template functions and the reading of template files |
| `TemplateLang` | the part of the text/template language that the shipped templates use, with those functions |
| `NewUsers`, `Passwd` | cmd/idmd gen newusers, gen passwd |
| `Serve` | server/server.go Serve loop: signals (also those sent before they are caught), reload goroutine, listeners that cannot be opened, readiness, shutdown; Accept loop of ldapserver |
| `Startup` | cmd/idmd/serve: defaults, environment, options, TLS check, exit codes; server.NewServer; what the LDIF handlers read at the start, from a file system given as functions. Not: how pflag splits the command line, pprof, the HTTP server of the metrics |
| `Reload` | Reload of the LDIF handlers on SIGHUP with the files as they are then (handler.go:94-168, middleware.go:76-129, server.go:150-163) |
| `IndexAttrs` | the configuration of the LDIF indexes: `AddIndexAttribute`, `RemoveIndexAttribute`, which indexes `newIndexMapRegister` makes (index.go:17-48, 188-203) |
| `ReloadParallel` | the same with overlapping requests: the looks at config file and main files are steps between those of the goroutines (server.go:150-163, middleware.go:122-129) |

Not modelled: logging, TLS, sockets (a write fails for good on its connection, and a response written in part counts as not sent), the cobra command line wiring, Prometheus itself, text/template's language beyond `Model/TemplateLang` and the sprig
functions (only idm's own template functions), change records and URLs in LDIF files, zxcvbn password strength (abstract score), error message texts, symbolic
links, white space beyond ASCII in passwd files. The handlers of `Model/Server` treat one request at a time per connection, as the code does.
`Model/Ldif` treats a request as one step (so the producer of a search that is not paged does not give up there, and after a panic in the middle
of a page the rest of the list is kept); `Model/Paging` and `Model/LdifParallel` have the exact behaviour, with any number of requests at the same
time. A reload replaces the LDIF tree by one pointer store, a search loads it once.

## 3. Properties: what is modelled, how it is proved

| id | model | proof |
|----|-------|-------|
| C01 | `Model/DN`: escaper, byte scanner of ParseDN | induction over the value with the scanner state |
| C02 | same, Normalize | from `parse (render k) = k` for normalised names; fails for types with escaped specials / trailing space → partial + counterexample |
| C03 | same | injectivity from the round trip; collision witness for escaped types → partial |
| C04 | `Model/Bolt`: three buckets at byte level, ids little endian, sequence | simulation relation to `Spec/Directory` preserved by every operation, induction over histories |
| C05–C07 | `getChildrenIDs`, `getSubtreeIDs` (fuel; fuel proved sufficient) | child id > parent id (`Proofs/Links`, an invariant that needs no condition on names); induction on the tree |
| C08 | transactions return old db on error | case analysis on every operation plus spec level |
| C09 | small-step transaction with crash points (`Model/Txn`) | invariant over steps |
| C10–C12 | invariants of C04 | induction; C12 fails if the base entry is renamed → partial |
| C13, C14 | EntryModifyDN, EntryDelete/EntryPut | via the refinement |
| C15 | ApplyModify | counterexample (delete uses the original values) + partial for lists without repeated attribute |
| C16–C18 | ApplyModify & helpers | induction over changes; C18 partial: attribute names distinct up to case |
| C19–C22 | handler + request parsing over packet trees | case analysis over packets; induction over packet sequences |
| C23, C24 | Validate, Hash, GenerateRandomPassword | case analysis / induction |
| C25 | exop | false: the hash is returned → counterexample + partial |
| C26 | exop, UpdatePassword, Bind | via the refinement |
| C27 | panics as values | counterexamples, partial: non-panicking classes of requests |
| C28 | session step | case analysis, induction over packets |
| C29 | ServerApplyFilter on packet trees, spec on a filter AST | induction on the filter; substring with several components fails → partial |
| C30 | ServerFilterScope | partial: names whose first RDN ends at their first comma; counterexamples |
| C31, C32 | search.go | induction |
| C33, C34 | composition | composition of C05, C29–C32 |
| C35 | routeFunc over lists in any order | fold invariant, permutation |
| C36 | `Model/Conc`: overlapping store calls; `Model/Parallel`: overlapping packets of connections | trace → sequential run, induction on the schedule |
| C37–C40 | LDIF tree, index, pump | induction over entries/filters; C39 partial + counterexamples. The condition on names is `TextTells` (Spec/Ldif): comparing texts gives the same as comparing names; `C39_plain_names` and others say which names meet it |
| C41, C42 | producer/consumer/registry state machine | invariant over schedules; which paging control counts; C42 counterexamples |
| C43–C47 | LDIF handler, middleware | case analysis |
| C48, C49 | `Model/Load`, `Model/LdifFormat`: load/export on texts | parents-first order + refinement; written text is an LDIF file (C91), read as such (C90) |
| C50 | EntryFromAddRequest | fold lemma; repeated types: last one wins |
| C51, C52 | Stats with an explicit mutex | invariant over schedules; countAdds deadlock counterexample; Clone loses ConnsMax |
| C53 | lexical path cleaning | path lemma |
| C54–C56 | template counter, newusers | induction; overflow and panic counterexamples |
| C57, C58, C69–C71, C83, C84 | `Model/Serve`: signals, reload goroutine, main goroutine, opening of listeners, accept loops as one state machine | invariants over all schedules; runs constructed from every reachable state (C71); counterexample runs |
| C59 | `Model/FilterText`: printer and parser of filter texts at byte level | induction over the filter; `Spec/Utf8`: which bytes are text, for the texts refused |
| C60 | request parsing of add/delete/modify/rename, bolt handler | case analysis from packet to response, refinement for the directory |
| C61 | `Model/Bolt`, stored DN text | invariant of the refinement (stored text parses to the key) |
| C62 | LDIF search loop with size limit | induction over the result list; size limits combined with paging; 32-bit conversion counterexample |
| C63 | load into a database with any history | induction over the file |
| C64, C65 | `Model/Template`: scanner, comment removal; `Model/LdifFormat` | induction over lines; counterexamples |
| C72 | `Model/Template`: selection, sorting and concatenation of the files of a directory (`directoryText`); the template language is a parameter | induction over the files, records split at empty lines (`Spec/Template.records`) |
| C73 | `Model/Template`: assignments to the variable map (`templateVars`, `withVar`) | case analysis over the order of the assignments |
| C74 | `Model/Parallel`: the goroutines of the connections, interleaved by transaction statement | transaction bodies end; invariant on the writer lock |
| C85, C86 | `Model/LdifParallel`: every goroutine in steps, channels with the entries still to come and already handed over | invariant over all schedules that says what each goroutine knows; then the equation with the server that treats one packet at a time (C85), conservation of entries in a channel, and that a registered cookie stays known until its search is at its end (C86); `Props/LdifPages`: the entries of a channel are those of the search that made it, so the pages are what it would find without paging; counterexample runs are computed by a step function that is proved sound (`Proofs/LdifRun`) |
| C87 | `Model/LdifParallel` | the possible ends of a packet for every answer of the handler; invariants: a channel without producer has a request that is about to start it, only a page of size 0 comes to the nil channel; then induction on what the producer still has to do. The packets that do crash or block are listed in `Spec/LdifAlive` |
| C88 | `Model/Parallel`, any number of lives of the process after one another | the serial order of C73 restricted to the requests that changed the database; a packet asking for a change is answered with success iff the store's call succeeded; induction over the lives. A life may end in any reachable state: the file is then what the last commit left (trusted: bbolt's commit is atomic and durable). Opening the file again only creates buckets that are missing, and none is after the first start. `C88_answers`: the same order also explains every answer to any request, at a point that never goes back and misses no acknowledged change |
| C90, C92 | `Model/LdifFormat`: `Unmarshal` | `Spec/LdifFormat`: RFC 2849 content files as an inductive grammar from bytes to records; induction over its derivations |
| C91 | `Model/LdifFormat`: `Marshal`; `Model/Load` | the written lines are a derivation of the grammar; base64 against an independent definition on bits |
| C89 | `Model/Passwd` | case analysis of the flags; the rest is C68. Files, generator, prompt and strength estimate are parameters |
| C76 | `Model/Wire`, `Model/Server`: encoders, all handlers | encoders equal the BER of a value (`respBytes_eq`), BER is prefix free, result codes by cases over all handlers |
| C77 | `Model/Wire`: reader of packets | induction over BER values (`Spec/Ber`), fuel independence, induction over messages |
| C78 | `Model/DN` | `Spec/Spelling`: grammar of spellings as inductive relation; the scanner of ParseDN follows a spelling, induction over it |
| C79 | `Model/Server`: the parsers of requests | `Spec/WellFormed`: which packet trees are a request; each parser accepts exactly those, induction over lists of parts |
| C80, C81 | `Model/Startup`: variables, environment, options, `NewServer` | `Spec/Startup`: options with their names, variables and defaults, which server they ask for; induction over the command line, then cases |
| C82 | `Model/Startup` with `Model/Server`, `Model/BoltHandler` | C78, C80 and C60 composed |
| C75 | `Model/NewUsers`: the text of the default template | records of the printed text, read with a small LDIF reader; then as a derivation of the grammar of C90 |
| C94 | `Model/NewUsers`: names and addresses of the users | `Spec/UserNames`: regular expressions with their matching relation; the hand-written test equals the expression of the code; then cases over the comment field |
| C93 | `Model/NewUsers`, `Model/Template`, `Model/LdifFormat`, the LDIF server | `Spec/Login`: what a template with variables stands for, as a relation; the engine is any function that respects it (instance `tinyEngine`). Composition of C75, C90, C67 and C44; `Props/Accounts`: the same for a server that is launched and lives on (C99, C101), with the engine of C105 |
| C95 | `Model/LdifFormat`, `Model/Template` (directories), the LDIF server | `Spec/Served`: what is sent for a record of a file, independent of how entries are stored. Composition of C90, C65, C72 with C39 and C44; filters and names of entries carry over to records because both have the same pairs of type and value |
| C96 | `Model/Stats` with `collect` (metrics.go), `float64` | the invariant of C51 extended: every copy is the tally of a prefix of the list of counts, so later copies are of longer prefixes. The collectors of the process and the Go runtime and the HTTP side of /metrics are not modelled |
| C97 | `Model/Router`: NewServer, the default handlers, the registration functions over `Model/Server` | `C35_most_commas` gives the handler chosen for any map; a fresh server by induction over the packets of a connection; registration by comparing the two servers packet by packet |
| C98 | `Model/Commands`: options, opening and locking of the database file, exit codes of `boltdb load`, `boltdb export`, `gen newusers` | case analysis over the states of the files; C48, C49, C56 for the contents |
| C99 | `Model/Startup` with the file system as a parameter, `Model/LdifFormat`, `Model/Ldif` | `Spec/Launch`: what the files at a path say once they have gone through the template engine (`Becomes`), the states before the first reload; C80, C81, C72 and C90 give the data, C95 the answers |
| C100 | `Model/Commands` (`loadCmd`), `Model/Load`, `Model/Startup`, `Model/BoltHandler` | `Spec/Loaded`: sorted files, what is sent for a record; C49 and an induction over the records give the directory, C80 the server, C33 and C22 the answers |
| C101 | `Model/Reload`: the running server with its paths, the disk as it is at each SIGHUP; `Model/Startup` | `Spec/Reload`: what counts after a history of packets and SIGHUPs, files going through the template engine each time, with the directory the config file may include from; induction over the history, then C95 and C47 |
| C102 | `Model/Parallel`, `Model/LdifParallel`: steps `lost` (the k-th response cannot be written), `block`, `crash`, each leaving `cut` in what is seen | the serial order of C36 covers cut requests as well (`OneByOne.cuts`); for the LDIF server, the step that would have sent everything; invariant over the requests being worked on |
| C103 | `Model/World` over `Model/Router.closeAll` | invariant over schedules: the log of the close handlers is the list of the connections that have ended |
| C104 | `Model/BoltHandler.boltSearchFn` in `Model/Server` | two runs of one packet compared; concrete requests for what fails |
| C105 | `Model/TemplateLang`: reading and executing the part of the template language that docs/example-template.ldif and scripts/*.ldif.in use, with the functions of template.go; anything else in a template is outside of the model | `Spec/TemplateLang`: how actions are written, what each does; the interpreter gives what the actions stand for and nothing else (both directions); `GoEngine`, that text/template does the same on this part, is an assumption about a library; C53 for included files, C99 and C101 for what is then served |
| C106 | `Model/Parallel`, lives of processes launched by `Model/Startup`, files of `Model/Commands` | `Spec/BoltLife`: servers launched on one file after the other, what searches and binds are answered from. C88_answers composed with C33, C22, C80 and C100; entries that no requested change names stay, by induction over the log |
| C107 | `Model/ReloadParallel`: the goroutines of `Model/LdifParallel`; a reload reads the disk as it is then, first the config file, then the main files | `Spec/ReloadParallel`: what counts after all that was seen. Induction over the run ties every version of the data in memory to a moment of the log; then C85, C86, C95 and C101 (`Props/ReloadPages` for paged searches). `Props/LdifUnique`: a file, the disk and the log say one thing only |
| C108 | `Model/NewUsers`, `Model/Commands` (`loadCmd`), `Model/Load`, `Model/Startup`, `Model/BoltHandler` | the name in the printed text is no DN, and what the parser returns of it is not below the base; with the variables replaced (`Renders`, `Spec/Login`) the text is an LDIF file, then C100 |
| C109 | `Model/Load` (export), `Model/LdifFormat`, `Model/Launch`, `Model/Ldif`, `Model/BoltHandler` | the exported text is an LDIF file without comments, so the template engine leaves it alone; an entry satisfies a filter exactly if what is shown of its record does; then C33 and C22 for the one server, C99 for the other. `Spec/Migrate` says what entries are the same |
| C110 | `Model/Bolt` | `Spec/Unrelated`: the names a call is about. Every call changes only those, and its result depends only on them, on their parents and on whether they have children; hence runs that agree on these agree; transferred to the database by C04 and C05 |
| C111 | `Model/Ldif`, `Model/IndexAttrs` | the producer of entries offers a subset, without repetitions, of what a walk over all entries offers, and filter and scope are judged per entry; equality by C39 for both servers; the configuration by induction over the calls, `Spec/IndexAttrs` says what the last call about a name is |
| C112 | `Model/Bolt`, `Model/Entry` | `Spec/Repeat`: the answer to a repeated call. After a call each attribute it names has the values the change makes of any values, and making it again keeps these; case split over the calls of the abstract directory; transferred to the database by C04 |
| C113 | `Model/Bolt`, `Model/Entry` | `Spec/Respelt`: calls that differ in the spelling of names. Each call of the abstract directory depends on the folded name only, and the comparison in `ApplyModify` is an equivalence; induction over the history; transferred to the database by C04 and C05 |
| C114 | `Model/Bolt`, `Model/Entry` | `Spec/Undo`: calls that leave no trace (same results and like answers for every continuation). The abstract directory has the same entry under every name before and after; transferred by C04 and C05 and the lemma behind C110. Renames by C13 twice |
| C115 | `Model/Bolt`, `Model/Server`, `Model/Filter` | No specification of its own: statements relate the entries (`entriesOf`) of several `handlePacket` answers. From C33 (what any search sends, also below bases that do not exist), C11 (names are unique, so that equal DN texts are one entry) and C10 (what is between two entries exists). Missing is what C33 leaves out. For LDIF files (`Props/AgreeLdif`) from C39, for filters of which the indexes lose nothing |
| C116 | `Model/Bolt`, `Model/Load`, `Model/Ldif`, `Model/Server` | `Spec/Shuffle`: no entry after one directly below it, and the same results and like answers for every continuation. On the abstract directory a series of adds is carried out if every name is free, new and has its parent before it, which a permutation keeps; transferred by C04, C05 and C49. For LDIF files a search sends what is offered by the walk or the indexes and kept by filter and scope, and what is offered and kept does not depend on the order; a bind looks an entry up by its unique name |
| C117 | `Model/BoltHandler`, `Model/Ldif`, `Model/Server`, `Model/Password` | A two-run statement. `Spec/Silent`: entries whose password cannot be tested. The code of a refused bind is computed from the lookup of C04 and C46, and shown to be a function of the name and the settings; false for entries without a password, on which the code panics |
| C118 | `Model/Ldif`, `Model/Server` | A two-run statement over `serveFrom`. `Spec/Strange`: packets that ask to bind. Every handler gives an answer that does not depend on the state, except for binds, for which C117 and C44 or C47 are used; induction over the packets. Missing is what C117 misses |
| C119 | `Model/BoltHandler`, `Model/Server`, `Model/Bolt` | A two-run statement over one packet: the answers from two databases are equal. For writes and for clients without a name the databases are arbitrary; for password changes they come from any two histories that leave the same entry under the client's name. Searches are C104 (anybody may read), binds C117 |
| C120 | `Model/LdifFormat`, `Model/Template`, `Model/Ldif`, `Model/Commands` | `Spec/Layout`: two records say the same if they have the same name and under each type the same values in order; two lists of records are the same up to order. What is read from a record (C90, C95) is determined by what it says: one entry, as its types are sorted and occur once. So the entries read are a permutation of each other, and C116 applies |
| C121 | `Model/Bolt`, `Model/BoltHandler`, `Model/Server` | The names a change is about are those of `Spec/Unrelated`. On the abstract directory every other name keeps its entry; the entries of a search are judged one by one; and the base of the search is still there if an entry below it is, as there are no orphans (C10). Binds by C22 and C117 |
| C122 | `Model/Ldif`, `Model/Server` | Two loads whose lists of records agree, up to order, outside a set of names. Whether the indexes offer a record depends on the record alone, as does whether it is kept; so both searches decide alike on every common record. Binds look up one record |
| C123 | `Model/Bolt`, `Model/Ldif`, `Model/Server` | Both directories agree on the base and the names in scope, so the store finds the same entries (C05); a search without size limit succeeds exactly if every entry found can be judged. For LDIF files: the producer offers only records whose names end in the base |
| C124 | `Model/Server` | A two-run statement over all servers: every branch of the loop uses the number only in its answers. Sessions by induction |
| C125 | `Model/Server`, `Model/Bolt`, `Model/Ldif` | False: shown on an example. What holds is that these options, the time limit and what is said about aliases have no influence at all, on both servers; no clock is modelled |
| C126 | `Model/Server`, `Model/BoltHandler`, `Model/Ldif` | False for abandon and compare requests and for failing searches. What holds: for every message, by its kind, exactly when the connection is closed, by cases over the loop; that accepted binds have a name is shown of the handler |
| C127 | `Model/Server`; requests and prescribed codes in `Spec/Offered` | False as to the codes. What holds of every server: one response of the right kind with an error code, nothing else changed, by cases over the requests and induction over the list of changes |
| C128 | `Model/Entry`, `Model/Bolt`, `Model/Server`; where values come from in `Spec/Origin` | Invariant over histories on the abstract directory (every value has an origin), by induction over the calls and the changes of a call; carried over to the store by C04 and to searches by C05. Attribute types of adds and modifications ASCII |
| C129 | `Model/Entry`, `Model/Bolt`; what takes a value away in `Spec/Stays` | Induction over the calls on the abstract directory with the invariant that attribute types are different up to case, C15 for modifications, C04 and C05 for the store. False for entries with an attribute type in two spellings |
| C130 | `Model/Bolt`; which entries there are, told from calls and results alone, in `Spec/Ledger` | Induction over the calls on the abstract directory: the names that exist, and their number, against the record of calls and results; C04, C05 and C12 for the store |
| C131 | `Model/Parallel`, `Model/Server`, `Model/Bolt`; who sent what in `Spec/Sent` | C88 gives the order of the changes and the directory each answer is taken from, C128 the call that gave the value, C20 and C21 who may have sent it |
| C132 | `Model/Parallel`, `Model/Server`, `Model/Bolt`; who takes a value in `Spec/Stays` | the acknowledged call is in the order of changes of C88; after it the value is there (C50, C15), and no change after it in that order takes it (C129) |
| C133 | `Model/Parallel`, `Model/Server`, `Model/Bolt`; what takes and brings a value in `Spec/Gone` | the acknowledged call is in the order of changes of C88; after it the value is not there (C15), and no change after it in that order brings it (induction over the changes) |
| C134 | `Model/Parallel`, `Model/Server`, `Model/Bolt`; what brings a value in `Spec/Gone` | after the acknowledged delete nothing has the name, so nothing of that name has the value; no change after it brings the value unless asked for (the induction of C133) |
| C66–C68 | `Model/NewUsers` | induction over users; printf model for gen passwd |

Words shared by specifications and model (result codes, characters, tags, limits, `splitOn`, `trimBy`, `isComment`, `hasPrefix`, lines of a text, values
of an attribute) are pinned down in `Props/Vocabulary` by theorems `vocab_*` that do not mention the code: constants by their values in the RFCs,
functions by what they do to every text.

## 4. Disagreements between code and properties

Each line is a kernel-checked counterexample in the model (a theorem of the given name), or a behaviour that a theorem makes explicit.

Names
* C01, C02 `C01_trailing_blank_fails`, `C02_trailing_blank_fails`: the escaped blank at the end of a last value is trimmed by the parser; the text does not parse back, for any such name (`C01_name_exact`).
* C61 `C61_escaped_type_fails`, `C61_unparsable_name_fails`: an entry is found under a name that is not its DN (escaped types), or has a DN that is none (names that `boltdb load` did not check).
* C02–C04 `C02_escaped_type_fails`, `C04_escaped_type_fails`: normalisation does not escape attribute types. Names with escaped characters in a type are
  not valid by RFC 4514, but the parser takes them, and two different ones share a key.
  The properties of the store (C04 ff.) are therefore stated for names valid by RFC 4514, and proved for all names whose types need no
  escapes (`rfc4514_nameOk`). C07 needs no such condition.

Store
* C12 `C12_below_base_fails`, C48 `C48_renamed_base_fails`: the base entry can be renamed while it is a leaf; the directory is then outside its base and
  an export cannot be loaded.
* C13 `C13_repeated_type_fails`: an old RDN with two values of one type loses only the last one (in general: the last conjunct of `C13_rename_partial`).
* C33 `C33_unparsable_name_fails`: `EntryPut` ignores the error of ParseDN and stores an entry whose DN is no DN; searches that meet it end in an error.
* C48 `C48_empty_fails`: exporting an empty database is an error. `C48_no_value_fails`: the export of an entry without values is refused by load.
  `C48_space_fails`: a space at the beginning of a printable value is lost on export and load.
* C49 `C49_version_fails`: load crashes on a file in which an empty line follows the version (as far as `AllEntries` does not skip nil records, which
  a comment at ldif.go:149-151 suggests).
* C49 `C49_bad_name_fails`: load panics at an entry whose DN is malformed. `C49_cut_name_fails`: it may also be added under the part of the name
  that could be read. C108 `C108_unfilled_fails`: what newusers prints cannot be loaded, as its template variables stay in the names. C63 `C63_overwrite_fails`: load does not overwrite.

Modify and add
* C15 `C15_sequential_fails`: a delete compares with the values before the request, not with those left by earlier changes. What the values are after any list of changes is `C15_values_partial` and, for entries with several attributes of one name as well, `C17_all_entries_partial` (`changeValues`, Spec/Modify).
* C17, C18 `C17_duplicate_names_fails`, `C18_duplicate_names_fails`: entries with two attributes equal up to case escape the checks.
* C50 `C50_repeated_type_fails`: of a type named twice in an add request only the last list of values is stored; `C50_last_occurrence` says so for every request.

Access and passwords
* C33/C34: a BoltDB search needs no bind; an anonymous client reads `userPassword` (`C33_search_exact_partial` is for any identity `bound`).
* C21: a failed bind keeps the previous identity.
* C23 `C23_cleartext_brace_fails`: cleartext passwords `{x}y` and the empty one are not accepted after hashing.
* C25 `C25_generated_password_fails`: the exop returns the hash of the generated password.
* C26 `C26_ligature_fails`: an attribute type that folds to userPassword but is not equal to it by EqualFold defeats the change.
* C26 `C26_renamed_base_fails`: after the base entry was renamed, the administrator can set the password of the renamed entry, but a bind with it is
  refused, because the name is not below the base.
* C27 `C27_substring_fails` (any client), `C27_root_fails`, `C27_change_fails` (administrator), `C27_not_owner_fails`, `C27_old_password_fails`: packets that
  panic. Only bind recovers; elsewhere a panic ends the process. `C27_control_fails`: 24 bytes of a client that has not bound, with a control whose type
  is not a string (go-ldap's `DecodeControl` asserts it).
* C76 `C76_compare_fails`: compare requests are answered with the type of a compare request. `C76_undefined_code_fails`: code 84, not in RFC 4511.
* C98 `C98_in_use_fails`: while a server has the database open, `boltdb load` and `boltdb export` neither fail nor say anything, they wait.
  `C98_exporting_fails`: load waits in the same way for a running export. `C98_bare_fails`: export crashes on a database file whose set-up was interrupted. `C98_newusers_broken_fails`: an error while the file of users is read is taken for
  its end, and the users read so far, the last one cut off, are printed with exit code 0. `C98_newusers_prefix_fails`: a run of `gen newusers` that
  ends with an error has printed the users before the faulty one.
* C79 `C79_password_fails`: a password change whose value is malformed or incomplete BER is taken for an empty one: the bound user gets a generated
  password (which is not in the response, C25). `C79_kind_fails`: only the first byte of the kind of a change is looked at.
* C81 `C81_ldif_base_fails`: the LDIF server refuses to start with a base DN like `dc=lg, dc=local` ("mismatched BaseDN"), the database server does not.
* C81 `C81_blank_base_fails`: the base DN is normalised twice, once by the handler and once by the store, which ignores that the normal form of a name ending in a blank cannot be read. The server then starts with a store whose base DN is empty; nothing can be written to a new database.
* C84 `C84_ready_fails`: `OnReady` is called, and systemd told, before any listener is open, and also if none can be opened.
* C78 `C78_blank_after_backslash_fails`: a blank after an escaped backslash at the end of a value becomes part of the value.

Search
* C29 `C29_substring_fails`, `C29_negated_substring_fails`: only the first substring component is compared. What remains true of every filter is that the entry is selected exactly if it satisfies the filter with the other components taken out (`firstOnly`, Spec/Filter): `C29_first_component_partial`, and for whole searches `C33_search_first_partial`, `C38_sound_first_partial`, `C39_search_first_partial`, `C95_search_first_partial`.
* C30 `C30_escaped_comma_fails`, `C30_semicolon_fails`, `C30_root_fails`, `C30_subtree_fails`; C33 `C33_escaped_comma_fails`: scope check on raw text, subtree unchecked.
* C33 `C33_case_fails`: the store compares names by full case folding (`ß` is `ss`), the front end by `strings.EqualFold`; an entry found by the first and not by the second is dropped from base and one-level searches.
* C67 `C67_cleartext_fails`: newusers with `--password-scheme {CLEARTEXT}` prints a password `{x}y` that no bind accepts.
* C31 `C31_repeated_fails`: an attribute asked for twice is sent twice (`C31_times`: as often as it is asked for). C59 `C59_empty_component_fails`: empty substring component; `C59_dn_attributes_fails`: an extensible match with the flag `dnAttributes` is refused, because the flag is taken from a value that the BER reader never fills in.
* C32: after sizeLimitExceeded the connection is closed.
* C35 `C35_tie_fails`, `C35_middle_fails`, `C35_case_fails`: routing compares text, counts commas, and depends on map order for ties; `C35_most_commas` says which handler is chosen in every case.

LDIF server
* C37 `C37_indexed_fails`: configured as an index attribute, userPassword can be tested by filters.
* C38 `C38_middle_fails`, `C38_paged_base_fails`, `C38_escaped_comma_fails` (`cn=a\,dc=x,dc=lg` is found below `dc=x,dc=lg`); C39 `C39_escaped_comma_fails` (a one-level search above an escaped comma is answered with an error), `C39_negation_fails`, `C39_objectClass_or_fails`, `C39_substring_case_fails`, `C39_case_fails` (names equal under EqualFold whose texts differ in lower case).
* C41 `C41_last_page_fails`, `C41_cut_fails`; C42 `C42_abandon_fails`, `C42_abandon_forever_fails`.
* C85 `C85_bind_reload_fails`: a bind during a reload looks into the old config file and then into the new main files; a user who moved from one to
  the other is refused. `C85_shutdown_fails`: a search whose producer gives up (shutdown, or nothing taken for a minute) is answered with a part of
  the result and success.
* C87 `C87_substring_fails`, `C87_change_fails`, `C87_abandon_fails`: also with LDIF files the search filter `(cn=**)` of a client that has not bound
  and an incomplete change of a client that has bound end the server, and a client that abandons a paged search is never answered.
* C89 `C89_unreadable_file_fails`: a secret file that cannot be read is ignored: the command asks for a password instead and hashes that (the error
  of the function literal is lost, passwd.go:76-115); other flags are then not noticed either.
* C89 `C89_file_newline_fails`: the newline at the end of a secret file becomes part of the secret. Also, `--generate=false` generates.
* C45 `C45_middleware_fails`; C46 `C46_spacing_fails`, `C46_case_fails`; C62 `C62_exceeded_fails`, `C62_wrap_fails`.
* C44: a bind to an entry without userPassword is a nil dereference (recovered: operationsError).
* C72 `C72_version_fails`: files that each begin with `version: 1` are read one by one, but not as a directory: the files are put together and the
  second version is taken for a record without a name.
* C92 `C92_broken_fails`: an error in the middle of reading a template file (or a directory whose name ends in `.ldif`) is ignored: what was read before
  is loaded as if it were the file.
* C64 `C64_long_line_fails`, C65 `C65_continued_fails`, `C65_data_fails`, C54 `C54_wrap_fails`: reading of template files.
* C54 `C54_files_fails`: the counter begins anew in each file of a directory, so two files hand out the same numbers.

Statistics, processes, tools
* C19, C28 `C19_stats_fails`, `C28_stats_fails`; C60 `C60_metrics_fails`; C52 `C52_adds_fails`: with metrics on, the first add request locks the statistics twice; every later
  count blocks for ever, on all connections. Only `Model/Stats` has the mutex. In the models of connections the add request alone blocks, so with
  metrics on they describe the server up to its first add request; after it they have more executions than the code. Claims that something does
  happen in them (C74, C87_answered) are therefore stated without metrics.
* C51 `C51_max_fails`: the copy of the statistics leaves out the maximum.
* C96 `C96_max_fails`: with two connections open, connections_max is reported as 0 (it always is: `C96_collected_partial`). `C96_add_blocks`: after an add request has been counted no collection ever ends.
* C58 `C58_still_served_fails`, `C58_stranded_fails`; C69 `C69_dead_listener_fails`; C70 `C70_dropped_fails`, `C70_early_fails`.
* C104 `C104_anonymous_fails`, `C104_password_fails`: the BoltDB server answers searches of clients that have not bound, also when anonymous binds are
  not allowed, and sends the stored password hashes to anyone.
* C55 `C55_zero_fails`, `C55_wrap_fails`; C56 `C56_five_fields_fails`; C66 `C66_zero_fails`; C67 `C67_no_password_fails`; C68 `C68_percent_fails`; C75 `C75_dn_fails`:
  user names are put into the DN unescaped.
* C95 `C95_spelling_fails`, C100 `C100_spelling_fails`: if a record of an LDIF file has both `userPassword` and `userpassword`, the password that counts is for the LDIF
  server the one whose spelling sorts last and for the database server the one whose spelling sorts first, not the first of the file. `C95_bind` and `C100_bind_exact_partial` say exactly which counts. (Of several values under one spelling only the first is accepted.)
* C93 `C93_no_password_fails`; `C93_template_fails`: newusers does not protect `{{` in its input; the server executes what follows as an action of its
  template language.
* C109 `C109_action_fails`: export does not protect `{{` either, an LDIF server refuses or executes such values. `C109_spelling_fails`: the LDIF server compares
  the texts of names at a bind, the database server the names: `uid=ann, dc=lg` is known to the latter only. `C109_password_fails`: only the database server answers filters on passwords.
* C110 `C110_related_fails`: not for entries of which one is directly below the other: whoever adds below an entry that is about to be added may come too early.
* C111 `C111_loses_fails`: indexes do more than save time: `(cn=ANN*)` finds `Ann Berg` without the index of `cn`, and nothing with it (as C39).
* C112 `C112_order_fails`: a modification with two changes of one attribute type, sent twice, may change the order of the values (never the values: `C112_values`).
* C113 `C113_sharp_fails`: `cn=ss` and `cn=ß` name one entry, which can be found and deleted under both names but modified only under the one it was added with.
* C114 `C114_rename_fails`: after a rename there and back the DN of the entry is written in lower case. `C114_present_fails`: adding a value the entry has already is answered with success, so deleting it again takes away the value there was.
* C115 `C115_ldif_or_fails`, `C115_ldif_and_fails`: the handler of LDIF files finds less for `(|(f)(g))` than for `f`, and less for `f` than for `(&(f)(g))`, where the indexes lose entries (objectClass beside other comparisons, initial substrings in another case).
* C117 `C117_no_password_fails`, `C117_ldif_fails`: a bind with a password as
  an entry that has no `userPassword` (or an unusable one) panics and is
  answered with operationsError (1), a bind as a name that does not exist with
  invalidCredentials (49). So anybody can find out which such entries exist,
  also at an LDIF server that lets nobody search. `C117_config_fails`: a name
  outside the base DN is answered with 49 if it is in the config file, else
  with 50.
* C125 `C125_types_fails`, `C125_critical_fails`: `typesOnly` is read but never
  used, so a search for types gets the values too; and a control marked as
  critical that the server does not know is ignored instead of refused.
* C126 `C126_abandon_fails`, `C126_compare_fails`, `C126_bind_fails`: an
  abandon request, a compare request and a search that is not answered with
  success end the connection. On the LDIF server a bind with the right
  password under a name that is no DN (the loader does not check names) ends it
  without an answer.
* C127 `C127_code_fails`, `C127_change_fails`: another protocol version and
  another bind method are answered with inappropriateAuthentication instead of
  protocolError and authMethodNotSupported. Another extended operation is
  answered with operationsError: `HandleExtendedRequest` returns protocolError,
  but `handleConnection` ignores the code (the other cases use it). Another
  kind of change is answered with 84, which is no result code of RFC 4511.
* C129 `C129_spelling_fails`: an entry may be added with an attribute type in
  two spellings (`MAIL: x` and `mail: z`). Adding a third value then makes the
  entry lose `z`: the values are read from the first of the two attributes and
  written to both.
* C133 `C133_two_deletes_fails`: each deletion in a modify request starts from the values the entry had before the request. Of two deletions of one attribute type in a request only the last has an effect: a request to take Ann and then Bob out of a group is answered with success, and Ann is still in it.

## 5. Checks

* `tools/axioms.sh` (after `lake build`) prints the axioms of every theorem in MANIFEST.json to `AXIOMS.txt`: nothing but `propext`,
  `Classical.choice`, `Quot.sound`.
* Every module was also compiled with `set_option autoImplicit false`, so that no misspelt name in a statement is silently a variable.
* `seeded/LOG.jsonl`: wrong programs tried against the theorems. The `example`s were removed before each attempt, so that only theorems count.
