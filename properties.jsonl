{"id": "C01", "title": "RDN value escaping is lossless", "statement": "Escaping any attribute value for use in a DN and then parsing the DN gives back exactly that value, whatever bytes it contains; the escaped text is printable ASCII and contains no unescaped separator.", "quantifier": "every byte string used as an RDN value", "why_tests_cant": "values are arbitrary byte strings (leading/trailing blanks, '#', backslashes, non-ASCII); a test picks a few", "anchors": ["pkg/ldapdn/ldapdn.go:encodeRDNValue", "pkg/ldapdn/ldapdn.go:ParseNormalize"]}
{"id": "C02", "title": "DN normalisation is idempotent", "statement": "Normalising the normalised form of a DN succeeds and returns the same string.", "quantifier": "every DN string the parser accepts", "why_tests_cant": "infinitely many spellings; the outcome depends on escape/fold interplay", "anchors": ["pkg/ldapdn/ldapdn.go:Normalize", "pkg/ldapdn/ldapdn.go:ParseNormalize"]}
{"id": "C03", "title": "Equal names normalise equally, different names never collide", "statement": "Two DN strings have the same normalised form exactly when they have the same sequence of RDNs, each with the same attribute types and values up to case folding: no two different names share one key, and case/blank/escape variants of one name always share it.", "quantifier": "all pairs of DN strings", "why_tests_cant": "quantifies over pairs of unbounded strings; a collision would be a needle in a haystack", "anchors": ["pkg/ldapdn/ldapdn.go:Normalize", "pkg/ldapdn/ldapdn.go:encodeRDNValue"]}
{"id": "C04", "title": "The store behaves like a map from names to entries", "statement": "Any history of add, delete, modify, rename and password-change calls on the BoltDB store gives the same results, and answers every later lookup the same way, as the same history on an abstract map from normalised names to entries.", "quantifier": "all finite histories of fewer than 2^64 calls with arbitrary arguments, names being valid by RFC 4514 (attribute types are descriptors or OIDs, values any bytes)", "why_tests_cant": "unbounded histories; three on-disk indexes must stay in step after every one", "anchors": ["pkg/ldbbolt/ldbbolt.go:EntryPut", "pkg/ldbbolt/ldbbolt.go:EntryDelete", "pkg/ldbbolt/ldbbolt.go:EntryModify", "pkg/ldbbolt/ldbbolt.go:EntryModifyDN", "pkg/ldbbolt/ldbbolt.go:UpdatePassword", "pkg/ldbbolt/ldbbolt.go:Search"]}
{"id": "C05", "title": "Base, one-level and subtree searches are exact", "statement": "After any history, a base search returns exactly the named entry, a one-level search exactly its direct children, and a subtree search exactly the entry and all its descendants; no entry is returned twice.", "quantifier": "all histories (as in C04), all search bases, all scopes", "why_tests_cant": "depends on the shape of an arbitrary tree produced by an arbitrary history", "anchors": ["pkg/ldbbolt/ldbbolt.go:Search", "pkg/ldbbolt/ldbbolt.go:getChildrenIDs", "pkg/ldbbolt/ldbbolt.go:getSubtreeIDs"]}
{"id": "C06", "title": "Subtree search returns parents before children", "statement": "In the result of a subtree search every entry other than the search base appears after its parent.", "quantifier": "all histories (as in C04), all search bases", "why_tests_cant": "order over arbitrary trees; export/load relies on it", "anchors": ["pkg/ldbbolt/ldbbolt.go:getSubtreeIDs"]}
{"id": "C07", "title": "Subtree search terminates", "statement": "A subtree search always terminates on a database produced by any history: the child links contain no cycle.", "quantifier": "all histories of fewer than 2^64 calls with arbitrary arguments, all search bases", "why_tests_cant": "recursion without a visited set; a cycle needs a particular history", "anchors": ["pkg/ldbbolt/ldbbolt.go:getSubtreeIDs"]}
{"id": "C08", "title": "A refused operation changes nothing", "statement": "An add, delete, modify, rename or password change that reports an error leaves the stored directory exactly as it was.", "quantifier": "all states, all requests", "why_tests_cant": "every failure point inside the transaction has to be covered", "anchors": ["pkg/ldbbolt/ldbbolt.go:EntryPut", "pkg/ldbbolt/ldbbolt.go:EntryDelete", "pkg/ldbbolt/ldbbolt.go:EntryModify", "pkg/ldbbolt/ldbbolt.go:EntryModifyDN", "pkg/ldbbolt/ldbbolt.go:UpdatePassword"]}
{"id": "C09", "title": "A crash leaves the state before or after the operation", "statement": "If the process dies at any point while an operation runs, the database reopened afterwards is the one before the operation or the one after it, never a mixture.", "quantifier": "all operations, all crash points between elementary writes", "why_tests_cant": "crash points inside a transaction are not reachable from unit tests", "anchors": ["pkg/ldbbolt/ldbbolt.go:EntryPut", "pkg/ldbbolt/ldbbolt.go:EntryDelete", "pkg/ldbbolt/ldbbolt.go:EntryModifyDN"]}
{"id": "C10", "title": "No orphans", "statement": "After any history every stored entry other than a top entry has its parent stored; an entry with children is never deleted or renamed.", "quantifier": "all finite histories (as in C04)", "why_tests_cant": "needs an invariant over all reachable databases", "anchors": ["pkg/ldbbolt/ldbbolt.go:EntryPut", "pkg/ldbbolt/ldbbolt.go:EntryDelete", "pkg/ldbbolt/ldbbolt.go:EntryModifyDN", "pkg/ldbbolt/ldbbolt.go:addID2Children"]}
{"id": "C11", "title": "Names are unique", "statement": "After any history no two stored entries have names equal up to normalisation, and an add or rename onto an existing name reports entryAlreadyExists.", "quantifier": "all finite histories (as in C04)", "why_tests_cant": "needs an invariant over all reachable databases", "anchors": ["pkg/ldbbolt/ldbbolt.go:EntryPut", "pkg/ldbbolt/ldbbolt.go:EntryModifyDN"]}
{"id": "C12", "title": "Every entry lies at or below the base DN", "statement": "After any history every stored entry's name is the configured base DN or a descendant of it.", "quantifier": "all finite histories", "why_tests_cant": "needs an invariant over all reachable databases", "anchors": ["pkg/ldbbolt/ldbbolt.go:EntryPut", "pkg/ldbbolt/ldbbolt.go:EntryModifyDN"]}
{"id": "C13", "title": "Rename moves one leaf and nothing else", "statement": "A successful rename makes the entry reachable under the new name only, keeps its position under the same parent, adds the new RDN values, removes the old ones when asked, and leaves all other entries and attributes as they were.", "quantifier": "all states, all rename requests", "why_tests_cant": "all entry contents and tree shapes", "anchors": ["pkg/ldbbolt/ldbbolt.go:EntryModifyDN", "pkg/ldapentry/ldapentry.go:ApplyModify"]}
{"id": "C14", "title": "A recreated name starts fresh", "statement": "Deleting an entry and adding one with the same name yields exactly the newly added attributes and no children; internal ids are never reused.", "quantifier": "all histories (as in C04)", "why_tests_cant": "stale index data would only show up after particular histories", "anchors": ["pkg/ldbbolt/ldbbolt.go:EntryPut", "pkg/ldbbolt/ldbbolt.go:EntryDelete"]}
{"id": "C15", "title": "Modify applies the changes one after the other", "statement": "A modify request has the effect of applying its changes in order, each to the result of the previous one, as RFC 4511 section 4.6 demands.", "quantifier": "all entries, all change lists", "why_tests_cant": "interactions between arbitrary sequences of changes", "anchors": ["pkg/ldapentry/ldapentry.go:ApplyModify"]}
{"id": "C16", "title": "Modify touches only the named attributes", "statement": "Every attribute not named (up to case folding) in the modify request keeps its name, values and order, and the DN stays the same.", "quantifier": "all entries, all change lists", "why_tests_cant": "all entries and change lists", "anchors": ["pkg/ldapentry/ldapentry.go:ApplyModify", "pkg/ldapentry/ldapentry.go:entryReplaceValues"]}
{"id": "C17", "title": "Add, replace and delete do what they say", "statement": "A single add change results in the union of old and new values, a replace in exactly the given values, a delete in the old values minus the given ones (all values if none is given), comparison being up to case folding; an attribute left without values disappears.", "quantifier": "all entries, all single changes", "why_tests_cant": "all value lists", "anchors": ["pkg/ldapentry/ldapentry.go:entryApplyModAdd", "pkg/ldapentry/ldapentry.go:entryApplyModDelete", "pkg/ldapentry/ldapentry.go:entryReplaceValues"]}
{"id": "C18", "title": "The RDN values of an entry cannot be modified away", "statement": "If an entry contains its RDN values before a modify request, then it contains them after it whenever the request succeeds.", "quantifier": "all entries, all change lists", "why_tests_cant": "interactions between arbitrary sequences of changes and duplicate attribute names", "anchors": ["pkg/ldapentry/ldapentry.go:ApplyModify"]}
{"id": "C19", "title": "Only bound clients write", "statement": "A request on a connection without a successful bind as a named user never changes the directory, and each add, delete, modify or rename on it is answered insufficientAccessRights.", "quantifier": "all request packets, all states", "why_tests_cant": "arbitrary packet trees from the network", "anchors": ["pkg/ldapserver/add.go:HandleAddRequest", "pkg/ldapserver/modify.go:HandleModifyRequest", "pkg/ldapserver/delete.go:HandleDeleteRequest", "pkg/ldapserver/modifydn.go:HandleModifyDNRequest", "pkg/ldapserver/pwmodifyexop.go:HandlePasswordModifyExOp"]}
{"id": "C20", "title": "Only the administrator writes, users change only their own password", "statement": "Whatever packets a client bound as a non-administrator sends, the only possible change to the directory is to the userPassword attribute of that client's own entry.", "quantifier": "all packets, all databases made by any history (as in C04), all bound names", "why_tests_cant": "arbitrary packets and states; aliasing of names could break it", "anchors": ["server/handler/boltdb/handler.go:writeAllowed", "server/handler/boltdb/handler.go:ModifyPasswordExop"]}
{"id": "C21", "title": "A connection's identity comes from its last successful bind", "statement": "After any packet sequence the identity a connection acts under is the normalised DN of its last bind answered with success, or anonymous if there was none.", "quantifier": "all packet sequences", "why_tests_cant": "unbounded sequences of packets, including malformed and failing ones", "anchors": ["pkg/ldapserver/server.go:handleConnection", "pkg/ldapserver/bind.go:HandleBindRequest"]}
{"id": "C22", "title": "BoltDB bind succeeds exactly with the right password", "statement": "A bind to the BoltDB server as a named entry succeeds exactly if the name parses, lies below the base, the entry exists, and the non-empty password validates against its first userPassword value; an empty DN succeeds only with anonymous bind enabled and an empty password.", "quantifier": "all DNs, passwords, databases made by any history (as in C04)", "why_tests_cant": "all stored hashes and names", "anchors": ["server/handler/boltdb/handler.go:Bind", "server/handler/boltdb/handler.go:validatePassword"]}
{"id": "C23", "title": "Password hashes validate exactly the hashed password", "statement": "Hash followed by Validate accepts the password for every scheme Hash supports, a cleartext value accepts exactly itself, {SSHA} accepts exactly when the salted SHA-1 matches, and an unknown scheme never accepts.", "quantifier": "all passwords, all stored values", "why_tests_cant": "all byte strings as stored value", "anchors": ["pkg/ldappassword/ldappassword.go:Validate", "pkg/ldappassword/ldappassword.go:Hash"]}
{"id": "C24", "title": "Generated passwords have the configured length and alphabet", "statement": "A generated password has exactly the configured number of characters, all from the documented alphabet.", "quantifier": "all random outcomes and lengths", "why_tests_cant": "random source", "anchors": ["pkg/ldappassword/ldappassword.go:GenerateRandomPassword"]}
{"id": "C25", "title": "A generated password works afterwards", "statement": "When a password change request asks the server to generate the password, the value returned to the client is a password that a following bind accepts.", "quantifier": "all states and random outcomes", "why_tests_cant": "needs the whole chain of exop, hash and bind", "anchors": ["pkg/ldapserver/pwmodifyexop.go:HandlePasswordModifyExOp", "server/handler/boltdb/handler.go:Bind"]}
{"id": "C26", "title": "A password change takes effect", "statement": "After a successful password change with an explicit new password, a bind of that user with the new password succeeds; the change is refused if an old password is supplied that does not validate.", "quantifier": "all states, users, passwords", "why_tests_cant": "whole chain of exop, hash, modify and bind over all states", "anchors": ["pkg/ldapserver/pwmodifyexop.go:HandlePasswordModifyExOp", "pkg/ldbbolt/ldbbolt.go:UpdatePassword", "server/handler/boltdb/handler.go:Bind"]}
{"id": "C27", "title": "No client can crash the server", "statement": "No packet sent by any client makes the server process panic.", "quantifier": "all packet trees, all states, all identities", "why_tests_cant": "adversarial inputs", "anchors": ["pkg/ldapserver/server.go:handleConnection", "pkg/ldapserver/extended.go:HandleExtendedRequest", "pkg/ldapserver/modify.go:parseModList", "pkg/ldapserver/filter.go:ServerApplyFilter", "pkg/ldbbolt/ldbbolt.go:EntryDelete"]}
{"id": "C28", "title": "Each request gets its own responses", "statement": "Every response carries the message ID of the request it answers; each accepted add, delete, modify, rename, bind, extended or search request is answered by exactly one final response of the matching type, unless the connection is closed.", "quantifier": "all packet sequences", "why_tests_cant": "unbounded packet sequences", "anchors": ["pkg/ldapserver/server.go:handleConnection"]}
{"id": "C29", "title": "Search filters mean what RFC 4511 says", "statement": "An entry is selected exactly if it satisfies the filter: and, or, not, presence, case-insensitive equality and substring matching with all components.", "quantifier": "all filters, all entries", "why_tests_cant": "recursive filters of unbounded depth over all entries", "anchors": ["pkg/ldapserver/filter.go:ServerApplyFilter"]}
{"id": "C30", "title": "Search scope check means what RFC 4511 says", "statement": "The front-end scope check keeps an entry exactly if it is in scope of the search base.", "quantifier": "all pairs of DNs, all scopes", "why_tests_cant": "all DN strings including escaped separators", "anchors": ["pkg/ldapserver/filter.go:ServerFilterScope"]}
{"id": "C31", "title": "Attribute selection", "statement": "A returned entry has exactly the requested attributes (all for an empty list or '*'), each once, with unchanged values.", "quantifier": "all entries, all attribute lists", "why_tests_cant": "all lists", "anchors": ["pkg/ldapserver/filter.go:ServerFilterAttributes", "pkg/ldapserver/search.go:filterAttributes"]}
{"id": "C32", "title": "Size limit", "statement": "With a size limit n>0 at most n entries are returned, they are the first n matches, and sizeLimitExceeded is reported exactly if there are more.", "quantifier": "all states, all searches", "why_tests_cant": "all result lists and limits", "anchors": ["pkg/ldapserver/search.go:HandleSearchRequest"]}
{"id": "C33", "title": "BoltDB search end to end", "statement": "A BoltDB search without size limit returns exactly the stored entries that are in scope and satisfy the filter, reduced to the requested attributes.", "quantifier": "all histories, all searches", "why_tests_cant": "composition of store, filter, scope and attribute selection over all states", "anchors": ["pkg/ldapserver/search.go:HandleSearchRequest", "server/handler/boltdb/handler.go:Search", "pkg/ldbbolt/ldbbolt.go:Search"]}
{"id": "C34", "title": "Search never changes the directory", "statement": "No search, bind or malformed packet changes the stored directory.", "quantifier": "all packets, all states", "why_tests_cant": "all packets", "anchors": ["pkg/ldapserver/search.go:HandleSearchRequest", "server/handler/boltdb/handler.go:Search", "server/handler/boltdb/handler.go:Bind"]}
{"id": "C35", "title": "Requests are routed to the longest matching suffix", "statement": "A request is handled by the registered handler whose suffix of the DN has the most components; the catch-all handler gets it if no other matches; the choice does not depend on registration order.", "quantifier": "all DNs, all sets of registered suffixes, all map iteration orders", "why_tests_cant": "map iteration order is random", "anchors": ["pkg/ldapserver/server.go:routeFunc"]}
{"id": "C36", "title": "Concurrent requests are serialisable", "statement": "Whatever the interleaving of requests of different connections, responses and the final directory are those of some sequential order of the same requests that respects real-time order.", "quantifier": "all schedules of any number of connections", "why_tests_cant": "schedules", "anchors": ["pkg/ldapserver/server.go:handleConnection", "pkg/ldbbolt/ldbbolt.go:EntryPut", "pkg/ldbbolt/ldbbolt.go:Search"]}
{"id": "C37", "title": "LDIF handler never reveals userPassword", "statement": "No search on the LDIF handler returns the attribute userPassword nor lets a filter test it.", "quantifier": "all LDIF files, all searches", "why_tests_cant": "all data and filters", "anchors": ["server/handler/ldif/ldif.go:treeFromLDIF", "server/handler/ldif/handler.go:Search"]}
{"id": "C38", "title": "LDIF search is sound", "statement": "Every entry returned by an LDIF search is in the loaded data, lies in the search base's subtree and the requested scope and satisfies the filter.", "quantifier": "all LDIF data, all searches, all index choices", "why_tests_cant": "all data and filters", "anchors": ["server/handler/ldif/handler.go:Search", "server/handler/ldif/handler.go:searchEntriesPump"]}
{"id": "C39", "title": "LDIF search is complete", "statement": "Every loaded entry in scope that satisfies the filter is returned by an LDIF search without limits: using an index never loses an entry.", "quantifier": "all LDIF data, all filters", "why_tests_cant": "all data and filters, index vs. filter mismatches", "anchors": ["server/handler/ldif/filter.go:parseFilterToIndexFilter", "server/handler/ldif/index.go:indexMapRegister.Load", "server/handler/ldif/handler.go:searchEntriesPump"]}
{"id": "C40", "title": "LDIF search returns no duplicates", "statement": "No entry occurs twice in an LDIF search result.", "quantifier": "all LDIF data, all filters", "why_tests_cant": "overlapping index results", "anchors": ["server/handler/ldif/handler.go:searchEntriesPump"]}
{"id": "C41", "title": "Pages concatenate to the full result", "statement": "The pages of a paged LDIF search, requested with the returned cookie until it is empty, concatenate to the result of the same search without paging, even if the data is reloaded in between.", "quantifier": "all data, page sizes, schedules of producer and consumer", "why_tests_cant": "two goroutines and a registry shared between requests", "anchors": ["server/handler/ldif/handler.go:Search", "server/handler/ldif/handler.go:searchEntriesPump"]}
{"id": "C42", "title": "A paged search can always be continued or abandoned", "statement": "A request with a cookie the server handed out is answered, and one with page size 0 ends the paged search.", "quantifier": "all schedules", "why_tests_cant": "two goroutines and a registry shared between requests", "anchors": ["server/handler/ldif/handler.go:Search"]}
{"id": "C43", "title": "The LDIF server is read-only", "statement": "Add, delete, modify, rename and password change on an LDIF server are refused with unwillingToPerform (or insufficientAccessRights for anonymous clients) and the data served never changes except by reload. (Servers without metrics, as far as adds are concerned: C52 says what metrics do.)", "quantifier": "all packets, all states", "why_tests_cant": "all packets", "anchors": ["server/handler/ldif/handler.go:Add", "server/handler/ldif/handler.go:Modify", "server/handler/ldif/handler.go:Delete"]}
{"id": "C44", "title": "LDIF bind policy", "statement": "An LDIF bind as a named entry succeeds exactly if the lower-cased name ends in the base DN, the entry exists and the non-empty password validates; anonymous binds and searches succeed only when enabled and from a loopback address.", "quantifier": "all names, passwords, addresses", "why_tests_cant": "all data", "anchors": ["server/handler/ldif/handler.go:Bind", "server/handler/ldif/handler.go:validateBindDN"]}
{"id": "C45", "title": "Reload is atomic", "statement": "A reload that fails leaves the previously loaded data in service; one that succeeds replaces it as a whole; a search sees one version only.", "quantifier": "all LDIF contents, all schedules of reload and search", "why_tests_cant": "schedules", "anchors": ["server/handler/ldif/handler.go:open", "server/handler/ldif/handler.go:Reload", "server/handler/ldif/middleware.go:Reload"]}
{"id": "C46", "title": "Duplicate DNs are rejected", "statement": "Loading LDIF data with two entries whose DNs are equal up to case fails.", "quantifier": "all LDIF contents", "why_tests_cant": "all data", "anchors": ["server/handler/ldif/ldif.go:treeFromLDIF"]}
{"id": "C47", "title": "Config users can bind but are not visible", "statement": "Entries of the LDIF config file are used for binds only: search results are those of the main handler, and a config entry shadows a main entry of the same name for binds.", "quantifier": "all data, binds, searches", "why_tests_cant": "all data", "anchors": ["server/handler/ldif/middleware.go:Bind", "server/handler/ldif/middleware.go:Search"]}
{"id": "C48", "title": "Export then load reproduces the directory", "statement": "Loading the entries exported from a database into an empty one succeeds and yields the same directory.", "quantifier": "all histories", "why_tests_cant": "all reachable databases; needs parents-first order", "anchors": ["cmd/idmd/boltdb/export/export.go:Export", "cmd/idmd/boltdb/load/load.go:Load"]}
{"id": "C49", "title": "Load stops at the first bad entry", "statement": "Loading LDIF entries into the store adds the entries in order up to the first one refused, and reports an error exactly if one is refused.", "quantifier": "all entry lists and states", "why_tests_cant": "all lists", "anchors": ["cmd/idmd/boltdb/load/load.go:Load"]}
{"id": "C50", "title": "Add stores the requested attributes", "statement": "After a successful add the entry has the DN as given and, for each attribute type in the request, the values given for it.", "quantifier": "all add requests", "why_tests_cant": "all attribute lists, including repeated types", "anchors": ["pkg/ldapentry/ldapentry.go:EntryFromAddRequest", "pkg/ldapserver/add.go:parseAddRequest"]}
{"id": "C51", "title": "Statistics count correctly", "statement": "With metrics enabled the counters equal the number of events of each kind, the number of open connections and its maximum, whatever the interleaving.", "quantifier": "all event sequences and interleavings", "why_tests_cant": "schedules", "anchors": ["pkg/ldapserver/stats.go:countConns", "pkg/ldapserver/stats.go:Clone", "server/metrics.go:Collect"]}
{"id": "C52", "title": "Counting never blocks", "statement": "With metrics enabled no request blocks forever on the statistics lock.", "quantifier": "all event sequences", "why_tests_cant": "locking", "anchors": ["pkg/ldapserver/stats.go:countAdds"]}
{"id": "C53", "title": "Template file inclusion is confined", "statement": "The template function that includes a file opens only paths inside the LDIF base directory.", "quantifier": "all file name arguments, all base paths", "why_tests_cant": "path traversal strings", "anchors": ["server/handler/ldif/template.go:TemplateFuncs"]}
{"id": "C54", "title": "AutoIncrement yields fresh numbers", "statement": "Without explicit argument each call of the template AutoIncrement function returns a number larger than every number it returned since it was last set.", "quantifier": "all call sequences", "why_tests_cant": "sequences and overflow", "anchors": ["server/handler/ldif/template.go:TemplateFuncs"]}
{"id": "C55", "title": "newusers assigns unused numbers", "statement": "For users without uid or gid number newusers assigns numbers that differ from every uid and gid in the input and from each other.", "quantifier": "all passwd files", "why_tests_cant": "all inputs", "anchors": ["cmd/idmd/gen/newusers/output_ldif.go:outputLDIF"]}
{"id": "C56", "title": "newusers rejects malformed lines with an error", "statement": "A passwd line with too few fields makes newusers report an error.", "quantifier": "all input lines", "why_tests_cant": "all inputs", "anchors": ["cmd/idmd/gen/newusers/newusers.go:parsePasswdFile"]}
{"id": "C57", "title": "A reload signal is never lost", "statement": "Every reload signal the server takes in is followed by a reload that starts after it.", "quantifier": "all schedules of signals, reloads and shutdown", "why_tests_cant": "schedules", "anchors": ["server/server.go:Serve"]}
{"id": "C58", "title": "One shutdown stops all", "statement": "After a termination signal no new connection is accepted.", "quantifier": "all schedules", "why_tests_cant": "schedules", "anchors": ["server/server.go:Serve", "pkg/ldapserver/server.go:Serve"]}
{"id": "C59", "title": "Filters survive the conversion to text", "statement": "The server turns the filter of a search request into text and compiles it again before applying it; the compiled filter is the filter the client sent.", "quantifier": "all filters of any depth, all attribute values (any bytes)", "why_tests_cant": "Filters are trees of unbounded depth over arbitrary byte strings; escaping errors show only for particular bytes and positions.", "anchors": ["pkg/ldapserver/search.go:parseSearchRequest", "pkg/ldapserver/search.go:HandleSearchRequest", "pkg/ldapserver/filter.go:CompileFilter"]}
{"id": "C60", "title": "Requests reach the store as they were sent", "statement": "An add, delete, modify or rename request sent by the bound administrator performs exactly the store operation it encodes and is answered with that operation's result; the same request from any other bound user is answered insufficientAccessRights and performs nothing.", "quantifier": "all requests, states, identities", "why_tests_cant": "all requests and states", "anchors": ["pkg/ldapserver/add.go:parseAddRequest", "pkg/ldapserver/modify.go:parseModifyRequest", "pkg/ldapserver/modifydn.go:parseModifyDNRequest", "pkg/ldapserver/delete.go:parseDeleteRequest", "server/handler/boltdb/handler.go:Add"]}
{"id": "C61", "title": "The DN of a returned entry names it", "statement": "The DN in a search result, parsed and case-folded, is the name under which the entry is stored, also after renames.", "quantifier": "all histories", "why_tests_cant": "all histories and names", "anchors": ["pkg/ldbbolt/ldbbolt.go:EntryPut", "pkg/ldbbolt/ldbbolt.go:EntryModifyDN"]}
{"id": "C62", "title": "Size limit on the LDIF server", "statement": "On the LDIF server, with a size limit n>0 at most n entries are returned, they are the first n matches, and sizeLimitExceeded is reported exactly if there are more.", "quantifier": "all data, all searches, all limits", "why_tests_cant": "all result lists and limits, including limits beyond 32 bits", "anchors": ["server/handler/ldif/handler.go: Search", "pkg/ldapserver/search.go: HandleSearchRequest"]}
{"id": "C63", "title": "Loading into an existing database", "statement": "As its help text says, loading an LDIF file into a database that already exists overwrites the database; at any rate loading neither removes nor changes an entry that it does not overwrite.", "quantifier": "all histories of the existing database and all lists of entries in the file", "why_tests_cant": "all reachable databases and all files", "anchors": ["cmd/idmd/boltdb/boltdb.go:CommandBoltDB", "cmd/idmd/boltdb/load/load.go:Load"]}
{"id": "C64", "title": "No part of an LDIF file is ignored silently", "statement": "The text of an LDIF file given to the template engine consists of all its lines that are not comments; nothing is dropped without an error.", "quantifier": "all LDIF files", "why_tests_cant": "the size limit of the line scanner concerns inputs no test contains", "anchors": ["server/handler/ldif/ldif.go:parseLDIFTemplate"]}
{"id": "C65", "title": "Comments do not change the data", "statement": "Taking the comments out of an LDIF file before parsing leaves the data of the file as they are.", "quantifier": "all LDIF files", "why_tests_cant": "all ways to mix comments, values and continuation lines", "anchors": ["server/handler/ldif/ldif.go:parseLDIFTemplate"]}
{"id": "C66", "title": "newusers keeps what it is given", "statement": "Every user of the input is printed once, with the user and group numbers given for it.", "quantifier": "all passwd files", "why_tests_cant": "all inputs", "anchors": ["cmd/idmd/gen/newusers/output_ldif.go:outputLDIF", "cmd/idmd/gen/newusers/newusers.go:DefaultLDIFUserTemplate"]}
{"id": "C67", "title": "Passwords of newusers", "statement": "The password value printed for a user accepts the password given in the input; a user without password cannot log in.", "quantifier": "all passwd files, all passwords", "why_tests_cant": "all inputs", "anchors": ["cmd/idmd/gen/newusers/output_ldif.go:outputLDIF"]}
{"id": "C68", "title": "gen passwd prints a value for the secret", "statement": "What gen passwd prints, used as userPassword, accepts the secret.", "quantifier": "all secrets, all schemes", "why_tests_cant": "all inputs", "anchors": ["cmd/idmd/gen/passwd/passwd.go:passwd"]}
{"id": "C69", "title": "A failed accept does not stop the service", "statement": "After the server failed once to accept a connection it still serves later connections.", "quantifier": "all schedules of connections and errors", "why_tests_cant": "needs resource exhaustion at one moment, in every state", "anchors": ["pkg/ldapserver/server.go:Serve"]}
{"id": "C70", "title": "A termination signal is never lost", "statement": "A termination signal sent to the server makes it shut down, and nothing else does but a listener that cannot be opened.", "quantifier": "all schedules of signals", "why_tests_cant": "schedules", "anchors": ["server/server.go:Serve"]}
{"id": "C71", "title": "Shutdown ends", "statement": "Once the server shuts down it returns, without another signal or connection, and only when its listeners are closed and no reload runs.", "quantifier": "all states the server can be in when the signal is taken", "why_tests_cant": "all states", "anchors": ["server/server.go:Serve", "pkg/ldapserver/server.go:Serve"]}
{"id": "C72", "title": "A directory of LDIF files is loaded completely, in order, and file by file", "statement": "When the LDIF source is a directory, the load fails if one of its files ending in .ldif cannot be read or rendered. Otherwise the records loaded are those of all these files, in the order of the file names. No record spans two files, and what a file contributes depends on that file only.", "quantifier": "all sets of files and all contents, with and without the template engine", "why_tests_cant": "all file sets and contents", "anchors": ["server/handler/ldif/ldif.go:parseLDIFDirectory", "server/handler/ldif/handler.go:open"]}
{"id": "C73", "title": "Template variables have the configured values", "statement": "In a template a variable given as extra variable has that value. Otherwise Company, BaseDN and MailDomain have the configured values, or the built-in ones where none is configured. A variable set by the template has the value set from then on and changes no other variable.", "quantifier": "all configurations, variables and values", "why_tests_cant": "all configurations", "anchors": ["server/handler/ldif/template.go:TemplateFuncs"]}
{"id": "C74", "title": "Requests of different clients never deadlock", "statement": "Whatever requests overlap, each request the server has read can still be answered without waiting for another client to send something. The exceptions are requests that crash the server or block their connection even when they are sent alone. (Servers without metrics; C52 says what metrics do.)", "quantifier": "all numbers of connections, all packets, all interleavings of the goroutines, all database histories", "why_tests_cant": "schedules", "anchors": ["pkg/ldapserver/server.go:handleConnection", "pkg/ldbbolt/ldbbolt.go:EntryPut", "pkg/ldbbolt/ldbbolt.go:Search"]}
{"id": "C75", "title": "newusers prints one LDIF record per user and nothing else", "statement": "The text printed by gen newusers, read as LDIF, is exactly one record per user in input order. Each record carries the name, the numbers, the password value, the mail addresses and the names of that user, whatever characters the fields of the input contain. The DN of the record is the user's name directly below the base.", "quantifier": "all passwd files, all user names, all field contents, all password hashes", "why_tests_cant": "all inputs: a field can contain separators and look like LDIF", "anchors": ["cmd/idmd/gen/newusers/output_ldif.go:outputLDIF", "cmd/idmd/gen/newusers/newusers.go:DefaultLDIFUserTemplate"]}
{"id": "C76", "title": "What a client reads is what the server decided", "statement": "The bytes the server writes on a connection are BER messages that a client can split in one way only. Each message says what the server decided: the message ID of the request, the type of the response, the result code, the entry with its name and all attributes and values in order, the paging cookie, the generated password. No other response can be read from the same bytes.", "quantifier": "all byte streams of clients, all states of the directory, all responses, all contents of entries", "why_tests_cant": "all contents, lengths and numbers: length forms and number encodings have boundaries everywhere", "anchors": ["pkg/ldapserver/server.go:encodeLDAPResponse", "pkg/ldapserver/bind.go:encodeBindResponse", "pkg/ldapserver/search.go:encodeSearchResponse", "pkg/ldapserver/search.go:encodeSearchDone", "pkg/ldapserver/extended.go:encodeExtendedResponse", "pkg/ldapserver/ldap.go:LDAPResultCode"]}
{"id": "C77", "title": "Requests are read as sent and incomplete ones have no effect", "statement": "A request in any BER encoding is read as what it says, however its bytes are split and whatever follows it. On a connection the complete messages are served in order, each once. A message that breaks off has no effect.", "quantifier": "all requests, all BER encodings of them, all splittings of the byte stream, all points at which a client can break off", "why_tests_cant": "all encodings and all break-off points", "anchors": ["pkg/ldapserver/server.go:handleConnection"]}
{"id": "C78", "title": "Every spelling of a name is read as that name", "statement": "A name may be written with special characters escaped or in hexadecimal of either case, any other character in hexadecimal, blanks around types and values, and commas or semicolons: it is read as the same name. Operations reach the same entry for two spellings exactly if the names are equal up to case.", "quantifier": "all names with RFC 4514 attribute types and all their spellings", "why_tests_cant": "there are unboundedly many spellings of each name", "anchors": ["pkg/ldapdn/ldapdn.go:ParseNormalize", "pkg/ldapdn/ldapdn.go:Normalize"]}
{"id": "C79", "title": "Only well-formed requests are carried out", "statement": "A bind, search, write or password change that does not have the form RFC 4511 (RFC 3062) gives it changes nothing, keeps the identity of the connection and is answered with an error; one that has the form is served as what it says.", "quantifier": "all packets, all connection identities, all server states", "why_tests_cant": "there are unboundedly many malformed packets", "anchors": ["pkg/ldapserver/add.go:parseAddRequest", "pkg/ldapserver/add.go:parseAttribute", "pkg/ldapserver/modify.go:parseModifyRequest", "pkg/ldapserver/modifydn.go:parseModifyDNRequest", "pkg/ldapserver/delete.go:parseDeleteRequest", "pkg/ldapserver/bind.go:HandleBindRequest", "pkg/ldapserver/search.go:parseSearchRequest", "pkg/ldapserver/pwmodifyexop.go:parsePasswordModifyExop"]}
{"id": "C80", "title": "Options take effect in the documented order", "statement": "The server that runs is the one asked for: each setting (handler, addresses, certificate, base and administrator DN, files, template defaults, anonymous bind, metrics) has the last value given on the command line, else the non-empty value of its environment variable, else its default.", "quantifier": "all environments and command lines", "why_tests_cant": "all combinations of settings from three sources", "anchors": ["cmd/idmd/serve/serve.go:setDefaults", "cmd/idmd/serve/serve.go:CommandServe", "cmd/idmd/serve/serve.go:configure", "server/server.go:NewServer"]}
{"id": "C81", "title": "A server starts exactly if its settings can be honoured", "statement": "idmd serve ends with code 1 for a wrong command line or a TLS address without certificate and key, with code 64 if the log level, handler, base DN, administrator DN, or file cannot be used, and serves otherwise; there is never a TLS listener without certificate and key.", "quantifier": "all environments, command lines and file contents", "why_tests_cant": "all combinations of settings", "anchors": ["cmd/idmd/serve/serve.go:checkTLSConfig", "cmd/idmd/serve/serve.go:serve", "cmd/idmd/serve/error.go", "server/server.go:NewServer", "server/handler/boltdb/handler.go:NewBoltDBHandler", "server/handler/ldif/handler.go:NewLDIFHandler"]}
{"id": "C82", "title": "The configured administrator is the one who may write", "statement": "On the database server, who has bound with any spelling of the name given as ldap-admin-dn, in any spelling, may write; nobody else may, and nobody at all without the option.", "quantifier": "all spellings of both names, all databases, all write requests", "why_tests_cant": "unboundedly many spellings", "anchors": ["server/handler/boltdb/handler.go:NewBoltDBHandler", "server/handler/boltdb/handler.go:writeAllowed", "pkg/ldapdn/ldapdn.go:ParseNormalize"]}
{"id": "C83", "title": "A listener that cannot be opened ends the server with an error", "statement": "If an address cannot be listened on (or the certificate cannot be loaded) the server does not go on without it but shuts down, and reports an error exactly if that was the reason; without a termination signal it never ends without an error. The process ends with exit code 1 in the one case and 0 in the other.", "quantifier": "all schedules of listeners, signals, connections and reloads", "why_tests_cant": "schedules", "anchors": ["server/server.go:Serve", "pkg/ldapserver/server.go:ListenAndServe", "pkg/ldapserver/server.go:ListenAndServeTLS"]}
{"id": "C84", "title": "Ready means listening", "statement": "The server says that it is ready (sd_notify) once, when its listeners are open.", "quantifier": "all schedules", "why_tests_cant": "schedules", "anchors": ["server/server.go:Serve", "cmd/idmd/serve/serve.go:configure"]}
{"id": "C85", "title": "Overlapping requests to the LDIF server are answered as if each was alone", "statement": "A request to the LDIF server that overlaps requests of other clients and reloads of the files gets the answer it would get alone, with the data in force at one moment between its arrival and its answer. The entries of an answer all come from one version of the files, none twice.", "quantifier": "all schedules of any number of connections, producers and reloads, all requests and data", "why_tests_cant": "schedules; races between requests and reloads", "anchors": ["server/handler/ldif/handler.go:Search", "server/handler/ldif/handler.go:Bind", "server/handler/ldif/handler.go:searchEntriesPump", "server/handler/ldif/middleware.go:Bind", "server/handler/ldif/middleware.go:Reload"]}
{"id": "C86", "title": "Pages of one search share one result", "statement": "Whoever presents the cookie of a paged search, on whatever connections at the same time and while the files are reloaded, gets entries of one result: what the same search without paging would have been answered with at one moment after it arrived; no entry is handed to two requests, and when a request is told that there are no more pages, every entry has been handed to one of them, unless the server gave up on the search because nobody took an entry for a minute or it is shutting down. A cookie that was handed out is refused as unknown only after that, or after somebody abandoned the search by asking for a page of size 0.", "quantifier": "all schedules of any number of clients using one cookie, all reloads", "why_tests_cant": "schedules; races on one channel", "anchors": ["server/handler/ldif/handler.go:Search", "server/handler/ldif/handler.go:searchEntriesPump"]}
{"id": "C87", "title": "The server with LDIF files stays alive and answers", "statement": "However the requests of many clients and reloads overlap, no packet ends the server, and every request that was read can be answered without anything from another client, a reload or a time-out.", "quantifier": "all schedules of any number of clients, all packets, all reloads", "why_tests_cant": "all packets and all schedules; absence of a deadlock between goroutines", "anchors": ["pkg/ldapserver/server.go:handleConnection", "server/handler/ldif/handler.go:Search", "server/handler/ldif/handler.go:searchEntriesPump", "server/handler/ldif/handler.go:Bind", "server/handler/ldif/middleware.go:Bind"]}
{"id": "C88", "title": "What clients were told survives crashes and restarts, exactly once", "statement": "Whatever clients send to a server with a database, however their requests overlap and whenever the process is killed and started again on the same file: the file is the result of making some of the requested changes one after the other. Every change a client was told had succeeded is among them exactly once, none that was refused is, one that was never answered is among them at most once, each was asked for by a connection bound as someone allowed to make it, and a change that was answered before another was sent comes before it. So an added entry is found as it was sent, a deleted one is gone, a renamed one is found under its new name only and a changed password is the one that counts after every restart, until someone asks otherwise.", "quantifier": "all numbers of process lives, all schedules of any number of clients in each, all points at which the process ends, all packets", "why_tests_cant": "crash points, schedules and histories over several lives of the process", "anchors": ["server/handler/boltdb/boltdb.go", "pkg/ldbbolt/ldbbolt.go", "pkg/ldapserver/server.go:handleConnection"]}
{"id": "C89", "title": "gen passwd takes the secret from exactly one source", "statement": "`idmd gen passwd` succeeds exactly if a secret was given in exactly one way (flag, file, generator, typed twice), is not blank, is strong enough and can be hashed with the scheme. It then prints the value for that secret, which with the default scheme accepts it. In all other cases it prints nothing and fails.", "quantifier": "all combinations of flags, all secrets, file contents and typed passwords", "why_tests_cant": "all secrets and all combinations of flags and failures", "anchors": ["cmd/idmd/gen/passwd/passwd.go:passwd", "cmd/idmd/gen/passwd/prompt.go:promptForPassword", "pkg/ldappassword/ldappassword.go:Hash"]}
{"id": "C90", "title": "LDIF files are read as RFC 2849 says", "statement": "From a file that is an LDIF content file (lines ended by LF or CR LF, folded lines, comments, values as text or in base64, a version line) exactly its records are read, in their order, each with its name and all its values in their order. The server loads it exactly if no two records have the same name up to case, and then serves these entries.", "quantifier": "all LDIF content files", "why_tests_cant": "all ways to fold lines, to place comments and to encode values", "anchors": ["server/handler/ldif/ldif.go:parseLDIF", "server/handler/ldif/ldif.go:parseLDIFFile", "server/handler/ldif/ldif.go:treeFromLDIF", "cmd/idmd/boltdb/load/load.go:Load"]}
{"id": "C91", "title": "Export writes an LDIF file that says what the directory contains", "statement": "The text printed by export is an LDIF content file whose records are the entries of the database, each once, with all their values; no line is longer than the fold width.", "quantifier": "all histories of the database", "why_tests_cant": "all entries: values with any bytes, long values, all types", "anchors": ["cmd/idmd/boltdb/export/export.go:Export"]}
{"id": "C92", "title": "A faulty LDIF file is refused as a whole", "statement": "If a record of an LDIF file does not begin with a name, has nothing but a name, has a line without a colon or a value marked as base64 that does not have the form of base64, the file is refused: nothing of it is read, wherever the record stands. The same holds for a file that cannot be read or rendered, and then nothing of its directory is read.", "quantifier": "all files", "why_tests_cant": "all files and positions of the fault", "anchors": ["server/handler/ldif/ldif.go:parseLDIF", "cmd/idmd/boltdb/load/load.go:Load"]}
{"id": "C93", "title": "Users made by newusers can log in", "statement": "If an LDIF server with templates has loaded what newusers printed, every user of the input has an entry below the users unit of the company with the attributes of the input, and can log in under that name (in any case) with the password given in the input and with no other.", "quantifier": "all passwd files, all values of the template variables, all template engines that fill in variables, all states of the server", "why_tests_cant": "a chain of programs over all inputs; a test runs it for some files", "anchors": ["cmd/idmd/gen/newusers/output_ldif.go:outputLDIF", "cmd/idmd/gen/newusers/newusers.go:DefaultLDIFUserTemplate", "server/handler/ldif/ldif.go:parseLDIFTemplate", "server/handler/ldif/handler.go:Bind"]}
{"id": "C94", "title": "Names and addresses of newusers", "statement": "Every user printed by newusers has the name of the input and, from the comment field, the full name (up to the first comma; the name if there is no comment field), the given name and last name (the full name cut at its first space) and, as further addresses, exactly the parts after the first comma that match the regular expression for mail addresses, those at the own domain being left to the server's mail domain.", "quantifier": "all passwd files, all own mail domains", "why_tests_cant": "all comment fields; the set of texts matching the expression is infinite", "anchors": ["cmd/idmd/gen/newusers/output_ldif.go:outputLDIF", "cmd/idmd/gen/newusers/utils.go:isValidEmail"]}
{"id": "C95", "title": "LDIF files are served as written", "statement": "When the data in force were read from LDIF files (one file, a file as a template without actions, or a directory), a search without size limit and controls by a client that may read is answered by exactly the records of the files that are in scope and satisfy the filter, none twice, each with its name (in lower case) and, under each attribute type asked for other than userPassword, exactly the values written in the file, in their order; and a bind with a password succeeds exactly if it matches the first password of the record of that name.", "quantifier": "all LDIF texts of the grammar (folding, comments, base64, line ends), all directories, all histories of packets and reloads before, all clients, filters, scopes, attribute lists, names and passwords", "why_tests_cant": "all texts, all histories and all requests; a test can only compare a few files with a few answers", "anchors": ["server/handler/ldif/ldif.go:parseLDIFFile", "server/handler/ldif/ldif.go:parseLDIFDirectory", "server/handler/ldif/ldif.go:treeFromLDIF", "server/handler/ldif/handler.go:Search", "server/handler/ldif/handler.go:Bind"]}
{"id": "C96", "title": "What the metrics report", "statement": "The six numbers of one collection of metrics belong to one moment between its beginning and its end: connections_total, binds_total, unbinds_total and searches_total count all the connections and requests counted so far, connections_current the connections open, connections_max the largest number of connections that were open at the same time; a number reported as a counter is never less than what an earlier collection reported; and a collection always ends.", "quantifier": "all interleavings of connections, requests and collections, of any number of each", "why_tests_cant": "all schedules; a test sees one", "anchors": ["server/metrics.go:Collect", "server/metrics.go:NewLDAPServerCollector", "pkg/ldapserver/stats.go:Clone", "cmd/idmd/serve/serve.go:serve"]}
{"id": "C97", "title": "The LDAP front end as a library", "statement": "A server on which no handler has been registered lets nobody in, sends no entry and carries nothing out. A handler registered under a suffix is given the bind, search, add, delete, modify, rename and password modify requests for every name that ends in this suffix and in no registered suffix with as many components, with the request as it was sent and the identity of the connection, and the client is told the result code it returns; writes of anonymous clients never reach a handler, and writes for names without a handler are refused. Registering a handler changes nothing for requests of another kind and for names that do not end in its suffix, and replaces the one registered before under the same suffix.", "quantifier": "all sets of handlers and suffixes, all orders in which the maps of handlers are gone through, all names, requests and identities", "why_tests_cant": "the iteration order of Go maps is random and the handlers and names are arbitrary; a test tries some", "anchors": ["pkg/ldapserver/server.go:NewServer", "pkg/ldapserver/server.go:routeFunc", "pkg/ldapserver/server.go:AddFunc", "pkg/ldapserver/server.go:BindFunc", "pkg/ldapserver/server.go:SearchFunc", "pkg/ldapserver/server.go:defaultHandler", "pkg/ldapserver/server.go:PasswordExOpFunc", "pkg/ldapserver/pwmodifyexop.go:HandlePasswordModifyExOp"]}
{"id": "C98", "title": "The offline commands end as they should and touch only what they are given", "statement": "boltdb load changes no file but its database, nothing at all when its options or the database file are unusable, and ends with exit code 0 exactly if every entry of the file was added; boltdb export changes nothing, prints only with exit code 0, and what it prints loads again with exit code 0; a database that is in use is left alone and reported. gen newusers reads exactly the file it is given (or standard input for -), ends with exit code 0 exactly if every line is usable, and prints nothing if it fails.", "quantifier": "all option values, file contents, lock states and databases", "why_tests_cant": "options, states of the database file and its lock, and contents of the input combine without bound", "anchors": ["cmd/idmd/boltdb/boltdb.go:CommandBoltDB", "cmd/idmd/boltdb/load/load.go:Load", "cmd/idmd/boltdb/export/export.go:Export", "pkg/ldbbolt/ldbbolt.go:Configure", "pkg/ldbbolt/ldbbolt.go:Initialize", "cmd/idmd/gen/newusers/newusers.go:newusers"]}
{"id": "C99", "title": "From the command line and the LDIF files to the answers", "statement": "idmd serve started with an LDIF file, or with a directory of LDIF files, serves exactly what the files say: searches yield the records that are in scope and satisfy the filter, with the values asked for and without passwords, and binds succeed exactly with the passwords in the files, whatever other packets have come since the start. With everything else in order it starts exactly if no two records have the same name up to the case of letters.", "quantifier": "all environments, command lines, file systems, LDIF texts, histories of packets since the start, clients, searches and binds", "why_tests_cant": "the files, options and packets are arbitrary and the answer depends on all of them; a test fixes one combination", "anchors": ["cmd/idmd/serve/serve.go:CommandServe", "server/server.go:NewServer", "server/handler/ldif/handler.go:NewLDIFHandler", "server/handler/ldif/handler.go:open", "server/handler/ldif/ldif.go:parseLDIFFile", "server/handler/ldif/ldif.go:parseLDIFDirectory"]}
{"id": "C100", "title": "From an LDIF file through boltdb load to the answers of the database server", "statement": "idmd boltdb load of an LDIF file into a new database ends with exit code 0 exactly if the file is correctly sorted: every name occurs once and is the base or comes after the name directly above it. idmd serve started on that database then answers searches by exactly the records of the file that are in scope and satisfy the filter, with the values asked for in the order of the file, and accepts binds exactly with the first password of a record.", "quantifier": "all LDIF texts, options, environments, command lines, searches and binds", "why_tests_cant": "the files, options and packets are arbitrary and the answer depends on all of them; a test fixes one combination", "anchors": ["cmd/idmd/boltdb/load/load.go:Load", "pkg/ldbbolt/ldbbolt.go:EntryPut", "pkg/ldbbolt/ldbbolt.go:Search", "cmd/idmd/serve/serve.go:CommandServe", "server/handler/boltdb/handler.go:Bind", "server/handler/boltdb/handler.go:Search"]}
{"id": "C101", "title": "What an LDIF server serves over its whole life", "statement": "At every point of the life of idmd serve with LDIF files, clients are answered from the files as they were when they could be used last: at the start, or at the last SIGHUP at which they were readable, correct and without two records of the same name. At a SIGHUP the config file is read first: if it is bad everything stays as it is; if it is good its users count from then on even if the main files are bad, which then stay as they are. A bind as a config user is decided by the config file alone, any other bind by the main files; searches are answered from the main files alone. The server starts exactly if both are good.", "quantifier": "all environments, command lines, file systems at the start and at each SIGHUP, LDIF texts, interleavings of packets and SIGHUPs, clients, searches and binds", "why_tests_cant": "the history of files and packets is unbounded and the answer depends on the last good version of each file; a test fixes one history", "anchors": ["server/server.go:Serve", "server/handler/ldif/middleware.go:Reload", "server/handler/ldif/middleware.go:open", "server/handler/ldif/handler.go:Reload", "server/handler/ldif/handler.go:open"]}
{"id": "C102", "title": "Clients that vanish while they are answered", "statement": "If a client disappears while its request is being worked on or answered, the request is carried out exactly as if the client were still there, and what the client has received is the beginning of the answer it would have got. Other clients get the answers they would have got anyway, no request is answered twice, and the data is the same. Only a request that crashes the server or blocks its connection ends differently.", "quantifier": "all requests, interleavings of connections, databases and LDIF files, and all points at which writing a response fails", "why_tests_cant": "the point of failure and the interleaving with other clients are arbitrary; a test fixes both", "anchors": ["pkg/ldapserver/server.go:handleConnection", "pkg/ldapserver/server.go:sendPacket", "pkg/ldapserver/search.go:HandleSearchRequest"]}
{"id": "C103", "title": "Every connection that ends is reported to the close handlers once", "statement": "When a connection ends, because the client goes away or because the server closes it, every registered close handler is called exactly once with the identity the connection had then; it is never called for a connection that is still open, nor twice. (If a bind request that a handler accepted ends the connection because its name cannot be read, the identity is empty.)", "quantifier": "all handlers, all schedules of packets on any number of connections", "why_tests_cant": "the ways a connection can end and the interleavings with other connections are unbounded", "anchors": ["pkg/ldapserver/server.go:handleConnection", "pkg/ldapserver/server.go:CloseFunc"]}
{"id": "C104", "title": "Only those who may read the BoltDB directory read it", "statement": "With anonymous access disabled, a client that has not bound gets no entries from the BoltDB server, and no client is sent the password values of other users.", "quantifier": "all search requests, identities, settings and databases", "why_tests_cant": "every request and every database would have to be tried under every identity", "anchors": ["server/handler/boltdb/handler.go:Search", "pkg/ldapserver/search.go:HandleSearchRequest"]}
{"id": "C105", "title": "LDIF templates stand for what their actions say", "statement": "In an LDIF file, variables (Company, BaseDN, MailDomain) are replaced by their current values, WithCompany, WithBaseDN and WithMailDomain set them from there on, AutoIncrement gives the next number or the one it is given, a local variable has its value from its declaration to the end of its block, formatAsBase64 and formatAsFileBase64 give base64 text, and everything else stays as it is. The result is the LDIF text that is loaded. A template with an undeclared local variable, an end without a block, a block without an end, or a file that is missing, too large or not inside of the include directory is not loaded; what a template becomes does not depend on files outside of that directory.", "quantifier": "all template texts made of these actions, all values of the variables, all file systems", "why_tests_cant": "templates, values, nesting and included files are unbounded", "anchors": ["server/handler/ldif/template.go:TemplateFuncs", "server/handler/ldif/ldif.go:parseLDIFTemplate", "docs/example-template.ldif"]}
{"id": "C106", "title": "What the database server answers over its whole life", "statement": "After an LDIF file has been loaded into a new database, or on a new database, whatever clients send at the same time to the servers that are started on it one after the other, and whenever these end or are killed: every search and every bind is answered from the directory that consists of the file's records and the changes made so far in one common order. These are at least the changes acknowledged before the request arrived (also by an earlier process) and all that any earlier answer has shown, and none that was requested later. In particular a record that nobody asks to change, delete or rename is found with all its values, and its password opens it, for ever.", "quantifier": "all LDIF files, all requests on all connections, all interleavings, all points at which the processes end, all settings", "why_tests_cant": "files, requests, schedules and crash points are unbounded", "anchors": ["cmd/idmd/serve/serve.go:CommandServe", "cmd/idmd/boltdb/load/load.go:Load", "server/handler/boltdb/handler.go:Search", "server/handler/boltdb/handler.go:Bind", "pkg/ldapserver/server.go:Serve"]}
{"id": "C107", "title": "What the LDIF server answers while requests overlap and files are reloaded", "statement": "An LDIF server serves any number of clients at the same time and reads its files again at each SIGHUP, first the config file, then the main files, while requests are in progress. Every search is answered from the records of the main files as they counted at one moment between its arrival and its answer, never from a mixture; every bind from those of the config file at one such moment, and from those of the main files at that or a later one. All pages of a paged search, whoever asks for them, come from the records that counted at one moment after it arrived, each record on at most one page. In particular a record that is in the main files at every moment is always found.", "quantifier": "all files, all requests on all connections, all interleavings, all contents of the disk at each look of the server at it, all settings", "why_tests_cant": "files, requests and schedules are unbounded; whether an answer mixes two versions depends on the schedule", "anchors": ["server/handler/ldif/handler.go:Search", "server/handler/ldif/handler.go:Bind", "server/handler/ldif/handler.go:Reload", "server/handler/ldif/middleware.go:Reload", "server/server.go:Serve"]}
{"id": "C108", "title": "Users made with newusers can be put into a database and log in there", "statement": "What `gen newusers` prints can be loaded into a database with `boltdb load`; at a server started on that database every user whose password was given in the input can log in with it.", "quantifier": "all users and passwords, all entries above them, all bases, all spellings of the names, all settings of the server", "why_tests_cant": "inputs are unbounded; the property ties two commands and the server together", "anchors": ["cmd/idmd/gen/newusers/newusers.go:DefaultLDIFUserTemplate", "cmd/idmd/boltdb/load/load.go:Load", "pkg/ldbbolt/ldbbolt.go:EntryPut", "server/handler/boltdb/handler.go:Bind"]}
{"id": "C109", "title": "A directory moved from the database to an LDIF file is served as before", "statement": "When the text that `boltdb export` prints is used as the main file of an LDIF server with the same base DN, clients that may read get the same answers to their searches as from the database server: the same entries with the same values under every attribute type, in the same order (names are in lower case and passwords are not shown); and a bind with a name and a password is accepted by one server exactly if it is by the other, and the connection then acts under the same name.", "quantifier": "all histories of changes to the database, all search requests, all names and passwords, all settings of the two servers", "why_tests_cant": "directories, filters and names are unbounded; the property compares two independent implementations, through a file format and a template engine", "anchors": ["cmd/idmd/boltdb/export/export.go:Export", "server/handler/ldif/handler.go:Search", "server/handler/ldif/handler.go:Bind", "server/handler/boltdb/handler.go:Search", "server/handler/boltdb/handler.go:Bind", "server/handler/ldif/ldif.go:parseLDIFFile"]}
{"id": "C110", "title": "Changes of unrelated entries do not interfere", "statement": "If two clients work on entries that have nothing to do with each other (no name one of them is about is a name the other is about, nor directly above or below one), then, however their calls are mixed, each of them gets the results it would get if the other did nothing, and afterwards finds under its names what it would find then. All ways to mix the same two sequences of calls lead to stores that answer every later call and every search alike.", "quantifier": "all histories before, all pairs of sequences of adds, deletes, modifies, renames and password changes, all ways to mix them, all later calls and searches", "why_tests_cant": "the number of ways to mix two sequences of calls grows exponentially, sequences and histories are unbounded; the entries share buckets, ids and lists of children in the database", "anchors": ["pkg/ldbbolt/ldbbolt.go:EntryPut", "pkg/ldbbolt/ldbbolt.go:EntryDelete", "pkg/ldbbolt/ldbbolt.go:EntryModify", "pkg/ldbbolt/ldbbolt.go:EntryModifyDN", "pkg/ldbbolt/ldbbolt.go:UpdatePassword", "pkg/ldbbolt/ldbbolt.go:Search"]}
{"id": "C111", "title": "Indexes of the LDIF server never add anything, and only save time where they cover the filter", "statement": "Whatever indexes are configured with AddIndexAttribute and RemoveIndexAttribute, every entry an LDIF server sends for a search is one that a server without indexes sends for it; where the indexes cover the filter, servers with different indexes that have loaded the same data send the same entries. An attribute has an index of a kind exactly if the last call about (a spelling of) its name lists the kind.", "quantifier": "all data, all sequences of configuration calls, all search requests without size limit and controls", "why_tests_cant": "data, filters and configurations are unbounded; an index that adds or loses an entry shows only for particular combinations of filter, values and configuration", "anchors": ["server/handler/ldif/index.go:AddIndexAttribute", "server/handler/ldif/index.go:RemoveIndexAttribute", "server/handler/ldif/index.go:newIndexMapRegister", "server/handler/ldif/handler.go:searchEntriesPump", "server/handler/ldif/filter.go:parseFilterToIndexFilter"]}
{"id": "C112", "title": "A change that is sent twice is made once", "statement": "If the answer to a call that changes the directory is lost and the call is sent again, nothing is changed by the second one: a call that was refused is refused again with the same error; an addition and a rename that were made are answered with entry already exists, a deletion with not found, a modification and a password change without old password with success; and everything asked for afterwards gets the results it would have got had the call been sent once.", "quantifier": "all histories of calls, all calls, all calls afterwards; modifications with at most one change per attribute type (for others: the same values, perhaps in another order)", "why_tests_cant": "the claim compares two runs for every history, every request and every continuation", "anchors": ["server/handler/boltdb/handler.go:Add", "server/handler/boltdb/handler.go:ModifyDN", "pkg/ldbbolt/ldbbolt.go:EntryPut", "pkg/ldbbolt/ldbbolt.go:EntryDelete", "pkg/ldbbolt/ldbbolt.go:EntryModify", "pkg/ldbbolt/ldbbolt.go:EntryModifyDN", "pkg/ldbbolt/ldbbolt.go:UpdatePassword", "pkg/ldapentry/ldapentry.go:ApplyModify"]}
{"id": "C113", "title": "Names may be written in any way", "statement": "Two histories of calls on the database that differ only in how the names of the entries are written (case, blanks, escapes, semicolons for commas) get the same results, call by call, and leave directories in which every search, with its name written in either way, ends alike and finds the same entries.", "quantifier": "all histories and all ways of writing names on which the two comparisons of letters agree (all ASCII names)", "why_tests_cant": "histories and spellings are unbounded; each call normalises names on its own, in several places", "anchors": ["pkg/ldapdn/ldapdn.go:Normalize", "pkg/ldapdn/ldapdn.go:ParseNormalize", "pkg/ldbbolt/ldbbolt.go:Search", "pkg/ldbbolt/ldbbolt.go:EntryDelete", "pkg/ldbbolt/ldbbolt.go:EntryModify", "pkg/ldbbolt/ldbbolt.go:EntryModifyDN", "pkg/ldbbolt/ldbbolt.go:UpdatePassword", "pkg/ldapentry/ldapentry.go:ApplyModify"]}
{"id": "C114", "title": "What is undone leaves no trace", "statement": "After any history of calls on the database: adding an entry and deleting it, deleting an entry and adding it back as a search found it, adding values an entry did not have and deleting them, and replacing the values of an attribute and putting back the old ones, leave no trace: every later call gets the result, and every later search the answer, it would get had the two calls not been made. Renaming an entry and renaming it back leaves its values and everything else as they were.", "quantifier": "all histories before, all histories after, all entries, names, attribute types and values", "why_tests_cant": "histories before and after are unbounded, and the indexes and ids kept inside the database differ", "anchors": ["pkg/ldbbolt/ldbbolt.go:EntryPut", "pkg/ldbbolt/ldbbolt.go:EntryDelete", "pkg/ldbbolt/ldbbolt.go:EntryModify", "pkg/ldbbolt/ldbbolt.go:EntryModifyDN", "pkg/ldapentry/ldapentry.go:ApplyModify", "pkg/ldbbolt/ldbbolt.go:Search"]}
{"id": "C115", "title": "Searches agree with each other", "statement": "Asked one after the other of an unchanged server with the boltdb handler, searches agree with each other (filters, and reading an entry again, also with the handler of LDIF files): at the same base and scope, (&(f)(g)) finds what f and g both find, (|(f)(g)) what one of them finds, and (&(g)(!(f))) what g finds and f does not; a search of a subtree finds the base object if it matches and what the searches of the subtrees below the names found by a one-level search find, nothing more; and asking for some attributes finds the same entries as asking for all, with the other attributes left out; and every entry that a search finds can be read again alone, by a base-object search at its DN.", "quantifier": "all histories, filters, bases, scopes, attribute lists and clients", "why_tests_cant": "histories, trees and filters are unbounded", "anchors": ["pkg/ldbbolt/ldbbolt.go:Search", "server/handler/boltdb/handler.go:Search", "pkg/ldapserver/search.go:HandleSearchRequest", "pkg/ldapserver/filter.go:ServerApplyFilter"]}
{"id": "C116", "title": "The order of the entries of a file does not matter", "statement": "If all entries of an LDIF file can be loaded into a boltdb database, in whatever state it is, then the same entries in another order can be loaded exactly if no entry comes after an entry directly below it, and the databases give the same results and the same answers to every later series of calls. For the handler of LDIF files any order will do: files with the same entries in different orders are loaded or refused alike, binds get the same answers, and a search without size limit that succeeds on one sends the same entries on the other, possibly in another order.", "quantifier": "all files, orders, histories before and after, names, filters and passwords", "why_tests_cant": "files and their orders are unbounded in number, and so are the calls that might tell them apart", "anchors": ["cmd/idmd/boltdb/boltdb.go:loadLDIF", "pkg/ldbbolt/ldbbolt.go:EntryPut", "server/handler/ldif/ldif.go:treeFromLDIF", "server/handler/ldif/handler.go:Search", "server/handler/ldif/handler.go:Bind"]}
{"id": "C117", "title": "A refused bind does not tell why", "statement": "Whatever a directory contains and whichever password is tried: when a bind under a given name is refused, the answer is the same. It does not tell whether there is an entry of that name, whether it has a password, or whether the entry is in the config file. The answer may depend on the settings of the server, on the name itself, and on whether the password tried is empty.", "quantifier": "all pairs of directories or files with any histories, names, passwords and clients", "why_tests_cant": "it compares all directories with all others, for all names and passwords", "anchors": ["server/handler/boltdb/handler.go:Bind", "server/handler/boltdb/handler.go:validatePassword", "server/handler/ldif/handler.go:Bind", "server/handler/ldif/middleware.go:Bind", "server/handler/ldif/entry.go:validatePassword", "pkg/ldapserver/bind.go:HandleBindRequest"]}
{"id": "C118", "title": "Strangers learn nothing from the LDIF server", "statement": "A client of the server with LDIF files that may not search (anonymous access is not allowed, or it does not come from a loopback address, and none of its binds was accepted) learns nothing about the data: servers with the same settings and different files, in whatever state, give it the same answers, whatever packets it sends, and it leaves no trace in them.", "quantifier": "all pairs of files, states of the server, series of packets, well-formed or not", "why_tests_cant": "it compares all files with all others, for all series of packets", "anchors": ["server/handler/ldif/handler.go:Bind", "server/handler/ldif/handler.go:Search", "server/handler/ldif/handler.go:validateBindDN", "server/handler/ldif/middleware.go:Bind", "pkg/ldapserver/server.go:handleConnection"]}
{"id": "C119", "title": "Who may not write learns nothing from trying", "statement": "A client of the database server that is not bound as the administrator cannot use adds, deletes, modifications, renames or password changes to find out what the directory contains: the answer to any packet other than a bind or a search is the same for all directories, except that password changes of a user for itself are answered according to that user's own entry.", "quantifier": "all pairs of databases, packets, well-formed or not, and names the client is bound as", "why_tests_cant": "it compares all directories with all others, for all packets", "anchors": ["server/handler/boltdb/handler.go:writeAllowed", "server/handler/boltdb/handler.go:Add", "server/handler/boltdb/handler.go:Delete", "server/handler/boltdb/handler.go:Modify", "server/handler/boltdb/handler.go:ModifyDN", "server/handler/boltdb/handler.go:ModifyPasswordExop", "pkg/ldbbolt/ldbbolt.go:UpdatePassword"]}
{"id": "C120", "title": "How records are written and spread over files does not matter", "statement": "Only what LDIF files say counts, not how: whether the records are in one file, in a template without actions, or in the files of a directory, in which order, with lines folded or not, with comments, in base64 or plain, and with the values of different attribute types in which order. Servers with such files load them alike, find the same entries and answer binds alike; boltdb load does the same for files with the same records in the same order.", "quantifier": "all files and directories that say the same records, all servers that have loaded them last, whatever happened before, all searches without size limit and controls and all binds; for load all databases", "why_tests_cant": "the ways to write a set of records and the requests are unbounded", "anchors": ["server/handler/ldif/ldif.go:parseLDIFFile", "server/handler/ldif/ldif.go:parseLDIFDirectory", "server/handler/ldif/ldif.go:treeFromLDIF", "server/handler/ldif/handler.go:Search", "server/handler/ldif/handler.go:Bind", "cmd/idmd/boltdb/load.go:Load"]}
{"id": "C121", "title": "A change shows in the entries it is about and nowhere else", "statement": "On the database server, adding, deleting, modifying or renaming an entry or changing its password affects no other entry: any search answered with success before and after the changes sends the same entries, except those whose name (or, for a rename, old or new name) one of the changes was about; and a bind is answered as before unless a change was about its name.", "quantifier": "all histories, lists of changes, refused or not, clients, searches without size limit, with any base, scope, filter and attributes, and binds", "why_tests_cant": "histories, changes and searches are unbounded, and the claim is that nothing else ever changes", "anchors": ["pkg/ldbbolt/ldbbolt.go:EntryPut", "pkg/ldbbolt/ldbbolt.go:EntryDelete", "pkg/ldbbolt/ldbbolt.go:EntryModify", "pkg/ldbbolt/ldbbolt.go:EntryModifyDN", "pkg/ldbbolt/ldbbolt.go:UpdatePassword", "pkg/ldbbolt/ldbbolt.go:Search", "pkg/ldapserver/search.go:HandleSearchRequest"]}
{"id": "C122", "title": "A change of the LDIF files shows in the records changed and nowhere else", "statement": "On the LDIF server, a reload of files in which some records were added, removed or edited affects no other record: any search answered with success before and after sends the same entries, except those with the name of a changed record, even if the other records are in another order now; and with the same config users a bind is answered as before unless its name is that of a changed record.", "quantifier": "all files, sets of changed records, histories of reloads and requests, orders of iteration, clients, searches without size limit and controls, and binds", "why_tests_cant": "the files and the searches are unbounded, and the claim is that nothing else ever changes", "anchors": ["server/handler/ldif/ldif.go:treeFromLDIF", "server/handler/ldif/handler.go:Search", "server/handler/ldif/handler.go:Bind", "server/handler/ldif/handler.go:Reload", "server/handler/ldif/index.go"]}
{"id": "C123", "title": "What lies outside the scope of a search has no influence on it", "statement": "On the database server, changes that are not about the base of a search or a name in its scope do not change its answer: if the search succeeds before or after them then it succeeds both times, with the same entries, perhaps in another order. On the LDIF server the same holds for a reload of files whose records with names ending in the search base are the same.", "quantifier": "all histories, lists of changes or files, clients, searches without size limit and controls, with any base, scope, filter and attributes", "why_tests_cant": "the entries outside the scope, the changes and the searches are unbounded", "anchors": ["pkg/ldbbolt/ldbbolt.go:Search", "server/handler/boltdb/handler.go:Search", "server/handler/ldif/handler.go:Search", "server/handler/ldif/memory.go", "pkg/ldapserver/search.go:HandleSearchRequest"]}
{"id": "C124", "title": "Message numbers have no influence", "statement": "On every server, whatever handlers it has: two messages that differ at most in their message number (and in parts after the controls, which LDAP allows for extensions) have the same effect on the directory and the connection, and get the same answers, which differ only in carrying the number of their message. So a session can be repeated with other numbers, even with the same number for all messages, and everything happens in the same way.", "quantifier": "all servers, states, identities of the client, messages, well-formed or not, and sessions of any length", "why_tests_cant": "it compares all pairs of sessions on all servers", "anchors": ["pkg/ldapserver/server.go:handleConnection", "pkg/ldapserver/search.go:HandleSearchRequest", "pkg/ldapserver/bind.go:HandleBindRequest"]}
{"id": "C125", "title": "The options of a search are honoured", "statement": "A search that asks for attribute types only gets no values, and a search with a critical control that the server does not know is refused (RFC 4511, 4.5.1.6 and 4.1.11).", "quantifier": "all searches, directories and clients", "why_tests_cant": "searches and directories are unbounded", "anchors": ["pkg/ldapserver/search.go:HandleSearchRequest", "pkg/ldapserver/search.go:parseSearchRequest", "pkg/ldapserver/server.go:handleConnection", "server/handler/ldif/handler.go:Search"]}
{"id": "C126", "title": "A connection ends when the client ends it", "statement": "A client that sends well-formed requests can go on using its connection after each of them, also if a request is refused, is not supported or finds too much; only unbind requests and messages that are no LDAP end it.", "quantifier": "all messages, identities, directories and settings", "why_tests_cant": "messages and directories are unbounded", "anchors": ["pkg/ldapserver/server.go:handleConnection", "pkg/ldapserver/search.go:HandleSearchRequest", "pkg/ldapserver/bind.go:HandleBindRequest"]}
{"id": "C127", "title": "What is not offered is refused", "statement": "A request for something the servers do not offer (another version of the protocol, another bind method such as SASL, another extended operation such as StartTLS, moving an entry to another parent, another kind of change such as increment) is answered once, with a response of its kind and the result code RFC 4511 prescribes; it changes neither data nor the identity of the client, and the connection goes on.", "quantifier": "all servers built with the library, such requests, identities and states", "why_tests_cant": "requests, handlers and states are unbounded", "anchors": ["pkg/ldapserver/server.go:handleConnection", "pkg/ldapserver/bind.go:HandleBindRequest", "pkg/ldapserver/extended.go:HandleExtendedRequest", "pkg/ldapserver/modifydn.go:parseModifyDNRequest", "pkg/ldapserver/modify.go:parseModList"]}
{"id": "C128", "title": "Nothing is invented", "statement": "Every value the database server sends for an entry was given to this very entry, byte by byte and for this type of attribute, by a request that was carried out: when the entry was added or later, by a modification, a rename or a change of the password. No value is made up, taken from another entry or an earlier entry of the same name, or comes from a refused request.", "quantifier": "all histories of calls, searches, identities and entries sent", "why_tests_cant": "histories and searches are unbounded", "anchors": ["pkg/ldbbolt/ldbbolt.go:EntryPut", "pkg/ldbbolt/ldbbolt.go:EntryModify", "pkg/ldbbolt/ldbbolt.go:EntryModifyDN", "pkg/ldbbolt/ldbbolt.go:UpdatePassword", "pkg/ldapentry/ldapentry.go:ApplyModify", "pkg/ldapserver/search.go:HandleSearchRequest"]}
{"id": "C129", "title": "A value stays until it is taken away", "statement": "A value that an entry of the database has stays, byte by byte, until a request that is carried out asks for it to go: by deleting the entry or the value, by replacing the values of its type, or by a rename that deletes the old RDN. All other requests, about this entry or others, by anybody, accepted or refused, leave it in place, also under new names of the entry.", "quantifier": "all histories of calls before and after, entries, attribute types and values", "why_tests_cant": "histories are unbounded", "anchors": ["pkg/ldapentry/ldapentry.go:ApplyModify", "pkg/ldbbolt/ldbbolt.go:EntryModify", "pkg/ldbbolt/ldbbolt.go:EntryModifyDN", "pkg/ldbbolt/ldbbolt.go:UpdatePassword", "pkg/ldbbolt/ldbbolt.go:EntryDelete"]}
{"id": "C130", "title": "What was acknowledged tells which entries there are", "statement": "An entry is found in the database under a name exactly if an acknowledged add or rename gave an entry that name and no acknowledged delete or rename took it away since; refused requests, modifications and password changes do not matter. As long as the base entry itself is not renamed, a search of everything below the base finds as many entries as adds were acknowledged, less the acknowledged deletes.", "quantifier": "all histories of calls, all names however written", "why_tests_cant": "histories are unbounded", "anchors": ["pkg/ldbbolt/ldbbolt.go:EntryPut", "pkg/ldbbolt/ldbbolt.go:EntryDelete", "pkg/ldbbolt/ldbbolt.go:EntryModifyDN", "pkg/ldbbolt/ldbbolt.go:Search"]}
{"id": "C131", "title": "What can be read was sent by someone who may", "statement": "Whatever value a search is sent by a server with a database was in the database before the server was first started, or was sent by a client, to this process or one before: one bound as someone who may make that change, who was not told that it was refused, and who asked before the search was answered. A value of any other attribute than the password was sent by the administrator.", "quantifier": "all histories of the database, all requests on all connections, all interleavings, all points at which processes end, all searches answered in any of these lives and all values in their answers", "why_tests_cant": "histories, schedules and crash points are unbounded, and a test cannot show that there is no other source", "anchors": ["server/handler/boltdb/handler.go:Add", "server/handler/boltdb/handler.go:Modify", "server/handler/boltdb/handler.go:Search", "pkg/ldbbolt/ldbbolt.go:Search", "pkg/ldapserver/server.go:handleConnection"]}
{"id": "C132", "title": "Acknowledged values survive crashes, restarts and other changes", "statement": "Once a client was told that an entry was added, every value it sent for the entry is found in it, byte by byte, whatever crashes, restarts and other changes follow, unless somebody asked for this value to be taken away or for the entry to be deleted or renamed. Once a client was told that a modification was made, the values it added or put in place are found in the entry, up to case, under the same condition. Values that were in the database before the server was first started are kept likewise, and a rename takes them along to the new name.", "quantifier": "all histories of the database, all requests on all connections, all interleavings, all points at which processes end and are started again, all acknowledged adds and modifications and all their values", "why_tests_cant": "crash points, schedules and the changes that follow are unbounded", "anchors": ["server/handler/boltdb/handler.go:Add", "server/handler/boltdb/handler.go:Modify", "pkg/ldbbolt/ldbbolt.go:EntryPut", "pkg/ldbbolt/ldbbolt.go:EntryModify", "pkg/ldapserver/server.go:handleConnection"]}
{"id": "C133", "title": "What was taken away stays away", "statement": "Once a client was told that a modification was made that deletes a value, deletes its attribute or puts other values in place (a member taken out of a group, say), the entry does not have this value in any spelling of upper and lower case, whatever crashes, restarts and other changes follow, unless somebody asked to give the value to the entry or to rename another entry to its name.", "quantifier": "all histories of the database, all requests on all connections, all interleavings, all points at which processes end and are started again, all acknowledged modifications and all values they take away", "why_tests_cant": "crash points, schedules and the changes that follow are unbounded, and a test cannot show that nothing brings a value back", "anchors": ["pkg/ldapentry/ldapentry.go:ApplyModify", "server/handler/boltdb/handler.go:Modify", "pkg/ldbbolt/ldbbolt.go:EntryModify", "pkg/ldapserver/server.go:handleConnection"]}
{"id": "C134", "title": "An entry with the name of a deleted one inherits nothing", "statement": "Once a client was told that an entry was deleted, any value that an entry of that name has later, after any crashes and restarts, is there because somebody asked for it after the delete was sent (or by a request still unanswered then): for the entry of that name to have the value, or for another entry to be renamed to the name. No password, address or membership of the deleted entry comes back by itself.", "quantifier": "all histories of the database, all requests on all connections, all interleavings, all points at which processes end and are started again, all acknowledged deletes, all attribute types and values", "why_tests_cant": "crash points, schedules and the changes that follow are unbounded, and a test cannot show that no value comes back", "anchors": ["server/handler/boltdb/handler.go:Delete", "pkg/ldbbolt/ldbbolt.go:EntryDelete", "pkg/ldbbolt/ldbbolt.go:EntryPut", "pkg/ldapserver/server.go:handleConnection"]}
