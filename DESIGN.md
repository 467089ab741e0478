# Formal model of ashafer01/laurelin in Lean 4

## Layout

* `lean/Verif/Model/*.lean` – executable, total Lean functions that mirror the Python, function by
  function. Every definition cites the file and lines it models and states every simplification.
* `lean/Verif/Spec/*.lean` – small independent specifications (abstract maps, RFC 4511 modify
  semantics, boolean evaluation, ...). They do not import the models, except for shared plain data types.
* `lean/Verif/Lemmas/*.lean` – helper lemmas.
* `lean/Verif/Props/*.lean` – the property theorems, each with an `example` showing that its
  hypotheses are met by a concrete non-trivial case, and negation theorems (concrete witnesses) where
  the code violates the English property.

Python exceptions are values (`Except`), strings are `List Char` (or `List Nat`/bytes where the
code is byte oriented), mutation is state passing, generators are explicit state machines.

## Trusted base

* Lean 4.33.0 kernel. Axioms allowed: `propext`, `Classical.choice`, `Quot.sound`. No axioms of our own.
* The reading of the Python source: the theorems are about the models; the code is not run.
* External behaviour that is *not* modelled and is a parameter or an assumption wherever it is used:
  pyasn1's BER codec (modelled in `Model/Ber.lean` and `Model/Asn1.lean`, but from knowledge of the library: see below),
  `parsimonious` (its documented PEG semantics is re-implemented as ordered-choice recognisers),
  `str.lower`/`str.upper`/NFKC (parameters; the laws assumed are the structures `UniLaws` and `UpperAscii`, as hypotheses
  of the theorems that need them), `ssl`, `socket`, `puresasl` (in C82 and C83 any state machine), `json`/`yaml` decoding, threads, time.
* Python built-ins modelled by definitions: insertion-ordered `dict`, `str` methods (`Model/Strings.lean`), `re` as regular
  expressions with Python's `$` (`Model/Regex.lean`, proved equivalent to a declarative match relation), UTF-8 and base64
  (`Model/Codec.lean`, proved to round-trip), `urlparse` without brackets, `;params` and NFKC checks.
* `Char` is a Unicode scalar value: lone surrogates, which a Python `str` can hold, are not represented.
* Lists and dictionaries are values. Aliasing is modelled where the code's own mutation is visible (C08, C14: `Mod` objects
  rewritten in place; C23: the shared message queue; C49: the configuration dictionary); elsewhere, e.g. the caller's list kept by
  `descattrs` and `CaseIgnoreDict`, it is not.
* Recursion depth is fuel where the code can recurse without end (C51 netgroups); elsewhere the interpreter's limit is not modelled.
* What runs outside the process is a function: the server `ModRequest → outcome`, the search results, `env : Call → outcome` in
  config, `find` in netgroups, what importing an extension module does (C68 `World`).

* `Model/Tls.lean`: `ssl` is a parameter (which CA settings load, which certificates are trusted under them, how a handshake ends); the network says which
  endpoints and local sockets accept; data arrive as chunks of whole messages; the SASL layer is left out; the base DN is given; `int` is modelled on ASCII.

### What is modelled

| module in /repo/laurelin | model | not modelled |
|---|---|---|
| ldap/utils.py, validation.py, attrsdict.py, attrvaluelist.py, modify.py, constants.py (`string`/`constant`) | Utils, CaseIgnoreDict, DictMethods, Attrs, Typed (arguments of any type), Modify, DisableValidation | logging, messages |
| ldap/filter.py | Filter, Regex | `parsimonious` itself |
| ldap/base.py | LdapModify, Conn, Search, SearchRequest, AddOrMod, Tags, Ldif, LdapUri, Dn, Net, Transaction, Tls, Sasl, Session | values of extended requests, logging |
| ldap/ldapobject.py | LdapModify, Transaction, Ldif, Dn, AddOrMod, Refresh, TransLdif, Navigate, DictMethods | `validate`, `validate_modify` (thin) |
| ldap/net.py | Net, Conn, Utils (hostname check), Tls, Sasl | the operating system's sockets and the `ssl` module: outcomes are parameters |
| ldap/controls.py | Controls | - |
| ldap/schema.py, objectclass.py, attributetype.py, rules.py | Schema, SchemaSpec, Prep, Syntax, AttrSchema, ObjectSchema, ClassQueries | docstrings |
| ldap/rfc4518.py, rfc4512.py, rfc4514.py | Prep, Syntax, SchemaSpec, Regex | - |
| ldap/config.py | Config | YAML/JSON decoding |
| ldap/extensible/ | Registration, Extensible | generated docstrings |
| extensions/netgroups.py, descattrs.py, pagedresults.py | Netgroups, DescAttrs, PagedResults, Ber | schema definitions as such |
| ldap/rfc4511.py, the message parts of protoutils.py, base.py, net.py, controls.py | Model/Rfc4511, Model/Received on Model/Asn1 (pyasn1's BER coder for the declared types) | sicily authentication, Microsoft extensions; subclasses for error texts |
| ldap/base.py and ldap/ldapobject.py on ldap/net.py, whole calls down to the octets (the models above composed) | OverWire (LDAPObject calls), Api (LDAP calls), ApiAttrs (LDAP.add_attrs/replace_attrs/delete_attrs), ApiPatterns (add_or_mod_*), ApiLdif (process_ldif), ApiTrans (transactions), ApiOpen (LDAP.__init__ once connected, refresh_root_dse, get_sasl_mechs, recheck_sasl_mechs), ApiLife (simple_bind, sasl_bind without a security layer, who_am_i, unbind), ApiTls (start_tls), ApiValidate (add and modify with the schema validator), ApiLoop (loops over search results that make other calls), ApiObject (all methods of an LDAPObject, from its making to its deletion), ApiNetgroups (the methods of the netgroups extension), ApiDescAttrs (the descattrs extension) | as in the rows above |

## Plan per property

| id | model | proof |
|----|-------|-------|
| C01 | `CaseIgnoreDict` as (`_keys`, underlying insertion-ordered dict), all methods | refinement to a map keyed by folded names, over op histories |
| C02 | same | negation by witness; `_partial` for histories with a consistent casing |
| C03 | `AttrsDict.__contains__`, `get_attr`, `iterattrs` | decision logic |
| C04 | `AttrValueList`, `AttributeType.index` with the match relation a parameter | induction on lists |
| C05 C06 C07 | `AddModlist`, `DeleteModlist`, `Modlist`, `Mod.__init__` | induction on dictionaries; set-level spec |
| C08 C09 | `LDAP.modify`, `LDAP.add`, `_run_validation` with sent requests as a log | induction on the modlist / validator list |
| C10 C11 C12 | `LDAPObject.modify`, `_local_modify` vs an RFC 4511 server spec | simulation; negations for empty-list / repeated deletes |
| C13 C14 | `ModTransactionObject` as a state machine | induction over operation sequences |
| C15 | `DisabledValidationContext` | nesting induction |
| C16 C17 | PEG recognisers for the three grammars + AST handlers | PEG compositional reasoning |
| C18 | printer `rfc4511_filter_to_rfc4515_string` | structural induction on filters |
| C19 C20 | `escape`, ava parser | induction on the string; negations |
| C21 | simple-syntax handlers | evaluation-preservation by induction |
| C22 | oid recogniser | negation + `_partial` |
| C23 C24 | `recv_messages`, `recv_one`, `send_message`; BER decoding is a parameter that splits a prefix | induction over chunks/steps; negation for `recv_one` |
| C25 C26 C27 | connection table, refcounts, bind flags as a state machine | invariants over histories |
| C28 C29 | tag table, result counting | invariants / decision logic |
| C30 C31 | `controls.py` | decision logic |
| C32 C33 C34 C35 | registries, must/may with caching, supertype chain, `SchemaValidator` | invariants, induction on the graph |
| C36 C37 C38 | `rfc4518`, matching rules | string induction; negations |
| C39 C40 C41 | utilities, hostname check | induction / iff |
| C42 C43 C44 | LDIF writer/reader | induction on length |
| C45 C46 C47 C48 | DN composition, find, dc/domain, LDAPURI | string lemmas |
| C49 | config | decision logic, negation for mutation |
| C50 C51 C52 | netgroups, descattrs | string/list induction, graph reachability with fuel |
| C53 | registrar | induction over require calls |
| C54 C55 C56 | add_or_mod, compare, search iteration | decision logic, induction |
| C59 | `ModTransactionObject` vs direct calls | simulation on the copied state; negation |
| C60 | parser and printer | via the filter grammar characterisation |
| C61 | `Control.register` | invariant over registration sequences; negation for half-registered controls |
| C62 C63 C64 | response handles, `_success_result` | induction over events / messages; negation for abandon |
| C65 C66 | `search` request building, base DN selection | iff characterisation against argument/default relations |
| C67 | `_netgroup_filter` with the filter parsers | first operand of the parsed conjunction; counterexample in unified syntax |
| C68 | `extensible/base.py` as a state machine over a world of modules | invariants over histories |
| C69 | the rfc4512.py expressions with named groups under Python's leftmost-greedy matching, both constructors | the matcher reads a deterministic grammar; equivalence with a separate RFC 4512 grammar |
| C70 | sockets with a channel (plain, TLS with settings and peer certificate, closed), the process-wide table, instances; every sent message is recorded with its channel (Model/Tls) | an evolution relation kept by every call, by induction over histories; negation witness for shared sockets |
| C71 | `LDAP.start_tls` and the socket's `start_tls` with every handshake outcome; received messages remember the channel they came through | the same relation; invariant "every queued message came through the present channel"; negation witnesses |
| C72 | URI parsing, dialling with the network as a parameter, `int()` on ASCII | separate grammar of locations and numerals; equivalence for ldapi |
| C73 | extended requests with queue and chunks | characterisation by the first message with the request's id |
| C74 | the shipped equality rules against the meaning of values (Spec/Values: numbers, bits, digits, words, lines) | canonical decimal notation is injective (digit-by-digit fold with bounds by powers of ten); bit strings, booleans likewise; string rules through C36; end to end through the loaded schema (C75, C76); postal addresses: equal words of the whole imply equal words of each line, not conversely |
| C75 | specifications read by the parser of C69 into the registry of C34, reads through supertypes, syntax and equality rules by OID and name (Model/AttrSchema, Model/BaseRules) | the registry holds exactly the described elements (induction over loading); separate inductive relation for what a type takes from its supertypes; composed with C04, C36 |
| C76 | the texts of the shipped schema (Model/BaseSchema, generated from the source), for every order of loading | kernel evaluation of the finite table on one order, then `List.Perm` for all orders; C75 for all values |
| C77 | all syntax rules by OID (Model/BaseRules), among them the guides with their nested criteria; the languages in Spec/Syntaxes, Spec/Descriptions, Spec/Guide, the syntax and length of each shipped type in Spec/BaseSchema | language equality for 33 syntaxes and triples (regular expressions by C57's lemmas); for guides mutual induction over the grammar (every RFC value accepted), and the exact language with nested criteria (Props/GuideExact: parts in parentheses taken out, induction on the length); composed with C75 for every shipped type |
| C78 | class registry, remembered `must`/`may`, and `SchemaValidator` on top of the registries of C75 (Model/ObjectSchema); specification on descriptions only (Spec/ObjectSchema) | equivalence for every history of earlier validations: invariant on what classes remember (C33), registry invariants (C34, C75), C35; instantiated with the shipped schema in every order of loading (`c76_accepts`) |
| C79 | the pyasn1 declarations as data (Model/Rfc4511) with an encoder and decoder over such data (Model/Asn1); messages and their encodings as a relation written from RFC 4511 and X.690 (Spec/Rfc4511), what each call asks for (Spec/Requests) | the relation on values generated by the declarations equals the relation of the specification (structural induction on filters, lists, components); the encoder is sound for it and gives the shortest element |
| C80 | decoder, views of decoded values (Model/Received), composed with the receiving loop of C23 and the search handle of C56 | decoder is complete for the relation for any declarations with distinct first octets (checked once by the kernel), local in what follows, and underruns on every proper prefix; so it is a codec for C23; conversely every accepted value is typed, the typed values are the messages of the specification, and they can be encoded again (`c80_well_formed`); the octets it accepts are exactly the encodings up to the forms of integers and booleans (`c80_exactly`, Lemmas/WireSound: every accepted input is an encoding under the `loosely` rules) |
| C81 | the same, with the parser results of C16 and C65 | decoding is a function, so encodings are unambiguous; injectivity of the embedding of messages in values and of UTF-8 |
| C82 | the loop of `sasl_bind` on octets and decoded messages (Model/Sasl), a mechanism is any state machine; exchange as a relation (Spec/Sasl) | induction on the challenges, with C79 and C80 for the octets |
| C83 | `wrap` and `unwrap` as the code calls them | induction on the pieces, then C80 |
| C84 | calls from their processed arguments to octets, the receiving loop of C23 on octets, and reading of the answer (Model/Session); how a call ends as a relation on messages (Spec/Session) | induction on the calls: nothing is left over from earlier ones; C79, C80 for octets and messages |
| C85 | the four refresh methods with the queries they make (Model/Refresh); attribute selection of RFC 4511/3673 as a relation (Spec/Refresh); histories with other writers | exact effect of one refresh on every attribute; induction on histories; negations for deleted attributes and stale classes |
| C86 | the formatting loop (Model/TransLdif) with Python's `repr` of bytes; what LDIF text describes a modification (Spec/ModLdif, on Spec/Rfc2849) | logical lines of the text; C44 for reading back; C13 for the commit; general injection theorem, negations for DELETE_ALL, binary values, colons |
| C87 | the methods over an arbitrary connection (Model/Navigate, on Dn and SearchRequest); which request a call may send and which settings are in force (Spec/Navigate) | case analysis for one call; induction over a chain; negations for tags and keywords |
| C88 | the five calls composed of the models of LdapModify, SearchRequest, Rfc4511, Net, Received and Search (Model/OverWire); the server as any function on octets, with its conformance (Spec/OverWire) | invariant over the history: the view of C10 with values as read, and a connection with nothing left over; the receiving loop on a run of messages; the encoding theorems of C79 and C80; a conforming server constructed by choice |
| C89 | as C84 and C88, without any assumption about the other side (Spec/Answered: a message among octets, what a response says) | invariant: everything queued or not yet taken from the socket was received; the decoder is sound for anything it accepts (C80); inversion of the reading of results |
| C90 | the calls from their arguments to octets and from octets to results (Model/Api), any peer; Spec/Directory: what operations mean, when a server serves a directory, what a call means for it | one call from a connection between requests: request read by C79, answers decoded by C80, iteration of the result; then induction over the history; servers exist for every meaning; kernel-computed run of the witness |
| C91 | the three calls down to octets (Model/ApiAttrs on Model/Api); Spec/Entries: a directory of entries by DN, and what the calls mean for it | the object read shows the entry (C90), the modlist made from it is the change asked for (C05, C06), and the request sent is the modlist (C90); directories exist with all these updates; kernel-computed run |
| C92 | the three calls down to octets (Model/ApiPatterns on Model/Api and Model/OverWire); Spec/Patterns: directories in which entries are created, what the calls promise | a server of the directory conforms for the one entry (C88), which is read (C90) and then updated through the object (C88), with other entries kept along the way; or is created (C90); directories exist with all these updates; kernel-computed runs |
| C93 | the calls down to octets (Model/Api, Model/ApiAttrs, Model/ApiPatterns); Spec/Willing: servers that refuse only what is impossible, which calls can be done | what fits is sent (C79) and what was asked is what the server reads (C90); its answer is read whole (C80) and is a success; the changes that add_attrs and delete_attrs work out from what they read are ones that the server's rules accept (C04); such servers exist for every directory (c93_server_exists), and a directory of one entry meets every hypothesis |
| C94 | process_ldif over the calls of Model/Api (Model/ApiLdif, on Model/Ldif); Spec/ApplyLdif: the request that a record of RFC 2849 describes, and what a directory undergoes | the text is read back as its records (C44), each call is the request of its record on the wire (C90), induction on the records with the contents of the directory as the invariant; completeness on willing servers by C93; a file of two records on a concrete server shows that the hypotheses can be met; Props/ApplySent: the messages with their controls, for any peer at all (c94_sent) |
| C95 | transactions of Model/Transaction over the connection of Model/OverWire (Model/ApiTrans); Spec/TransWire: read and modify requests, what the calls ask for of an entry, in composition | a recording peer: induction on the history for what is written; for the effect the invariant that the staged list takes the server's entry to the one the transaction shows, or that no server can accept it (Props/TransWireEffect); commit by C88's modify step; a selective conforming server constructed by choice |
| C96 | refresh_root_dse, the choice of base DN and mechanism, the check of mechanisms, over the connection of Model/Api (Model/ApiOpen); Spec/OpenWire: the request, the values sent for a name | the step of getOne from C90, its liveness from C93, a recording peer for what is written; the values by C88's relation Shows |
| C97 | binds, who_am_i, unbind and the calls of Model/Api on one connection (Model/ApiLife); Spec/Life: what binds mean to a server, the exchange of a mechanism as an inductive relation, the request of each call | one step per message from the exchange lemmas of C90 and the bind response of C82; induction on the exchange and on the history; recording peer for what is written; a server for every meaning by choice |
| C98 | the dictionary of C01 with the builtin methods that do not know of `_keys` (Model/DictMethods); Spec/OrderedMap: a list of items | refinement step by step under an invariant on `_keys`; dict equality as equality of lookups, by counting; negation witnesses |
| C99 | loop and body over the calls of Model/Api, the generator of the socket kept suspended meanwhile (Model/ApiLoop); Spec/Loop: servers that do not cut messages, what a body has done | whole messages that wait are put into queues by the next call, which changes nothing else (Props/LoopNet, Props/LoopCall: a call on such a connection equals the call on one that is between requests); invariant of the suspended reader: held, queued or waiting messages; induction on the messages and on the program; kernel-computed run of the witness |
| C100 | methods of an object on the calls of Model/Api and Model/OverWire (Model/ApiObject); Spec/ObjectLife: removing, renaming and finding entries, what an object shows, what each method means | invariant (the object shows its entry, values conform to the schema) kept by each method; names by Props/Dn, renaming by rename_sim against the server's renaming; induction on the sequence; a server for every directory, a kernel-computed program add_child, rename, delete; kernel-computed octets of the witness |
| C101 | the methods of the extension on the calls of Model/ApiAttrs and Model/ApiObject (Model/ApiNetgroups); Spec/NetgroupsWire: what a change does to the entry, which entry a name stands for, the names in triples, groups reached | changes: C91 with what C50 says of a member list; members: the lookup by the search of C90 and the refresh of C10, induction on the recursion limit, then mutual induction on the expansion; cycles: a returned expansion makes membership well-founded below the group; kernel-computed runs of two groups and of an added user |
| C102 | ngFilter, ngSearch (Model/ApiNetgroups); Spec/NetgroupSearch: a directory that finds only entries of which the filter is true, netgroups, the filter that is meant | prefix-unambiguity of the standard grammar (C16) turns a reading of the pasted text into readings of its parts; unified: the standard reading of sequences; simple: no text of the grammar begins with an opening parenthesis and `&`; then the search of C90 and C100; kernel-computed run |
| C103 | hasClass, ngRequire, ngObjChange, ngObjNames on the methods of Model/ApiObject (Model/ApiNetgroups); Spec/NetgroupsObject: what such a change means | the refresh of C10 for the object class, decided by the schema (C04); then one step of C100 with what C50 says of a member list; kernel-computed run of a user added |
| C104 | descOpen, descChange, descRun on the methods of Model/ApiObject and the dictionary of Model/DescAttrs (Model/ApiDescAttrs); Spec/DescWire: programs of modifications and what each means for the entry | induction over the program: what the extension keeps is that of C52 whatever became of the requests; each request is one step of C100; kernel-computed runs |
| C105 | Python values and a store of list objects, St, setItem, setDefault, update, step, run (Model/Typed); Spec/Typed: conforming values, what is shown, fair histories | one closure lemma for all calls, used for two invariants (whose lists are held; they conform); one-call theorems on reachable states |
| C106 | a connection with its root DSE and whether TLS is on; startTls, responseOk (Model/ApiTls), the handshake as a parameter; Spec/StartTlsWire: what StartTLS means to a server, the ways a call ends, what is known of a root DSE | one message and its answer (as in C97), then the handshake, then the root DSE as in C96 |
| C107 | a connection with the validator as the first of its validators and what it remembers: Guard, guarded, guardedCall, guardedRun (Model/ApiValidate) over the validator of C76 and C78 and the calls of C90; Spec/ValidatedWire: what follows the schema, which changes are let through, the kept calls of a history | C78 with the shipped schema for objects, the same for changes; an AttributeError, which would be swallowed, never comes from an object; the memory stays good by induction on the history |
| C108 | the questions on the classes of C78 and what they remember: requiredAttr, allowedAttr, ask, asked (Model/ClassQueries); Spec/ClassQueries: what the descriptions require and allow | the memory invariant of C78 through every question, then the lookup of each case; the shipped schema as in C76 |
| C109 | netgroupAttrs, netgroupAttrsArg and reading must and may of a class as a further question (Model/ClassQueries); the attributes of netgroups written out (Spec/ClassQueries) | the memory invariant of C108, then the shipped classes of C76 |
| C57 C58 | syntax rules, paged results | language equivalence; round trip |

No property in the list is "not applicable": each has logic an executable model can carry.  What lives in
the runtime (real sockets, TLS, BER bytes, Unicode tables) is a parameter of the model.

## Disagreements found between the code and the properties

Each is a theorem (or a part of one) in `Props/`; the properties concerned are `partial` in MANIFEST.json.

* **C02** setting a key under another casing leaves the old casing in iteration.
* **C08** `LDAP.modify` rewrites `DELETE_ALL` in the caller's `Mod` objects, so a modlist cannot be reused. **C14** Retrying a commit that failed silently drops a staged
  delete-all, while the local object is cleared.
* **C10** `delete_attrs({'cn': []})` under the default `ignore_empty_list` deletes locally and sends nothing; clearing an attribute the object does not have raises KeyError after the
  server applied the change; adding to an attribute that was not fetched shows the new values only.
* **C15** re-entering a context that was left never ends the suspension. **C59** in a non-strict transaction, delete-all then add-back re-reads the server and loses the add.
* **C18 C60** a trailing empty `any` is lost when printing; rule names that begin with "dn" are refused. **C19 C20** `escape` leaves the backslash alone, and escapes
  are never decoded before sending. **C22** OIDs with multi-digit arcs are refused in filters.
* **C23** `recv_one` drops other responses of the same chunk; leftover bytes belong to a generator; a queue reference kept across reads reorders messages; end of file loops for ever.
* **C25** a URI without scheme leaves a closed socket in the table; unbinding twice closes another instance's socket; a constructor that fails late leaks a reference; a private
  connection evicts the shared one. **C26** extended requests do not check for unbound. **C27** the connection stays bound after a detected downgrade.
* **C29** references count as results. **C31** an unregistered non-critical response control raises. **C56** fetching references (the default) always raises; a followed
  referral would wait for ever; a tagged search raises at the second entry. **C61** a refused control stays half registered; the parameter name `new_dn` is not reserved. **C62** abandoning raises AttributeError after sending.
* **C32** an element refused for a name stays registered under its OID; **C33** an undefined superclass raises on first read and is silently ignored on the second; circular graphs are
  incomplete. **C35** names are compared case-sensitively; extensibleObject is not honoured; undefined attribute types raise AttributeError; delete-all of
  NO-USER-MODIFICATION attributes is not checked.
* **C37** only the first character is tested for being prohibited, and the table contains the letter F and lacks U+0350-035F. **C38** distinguishedNameMatch never returns True.
* **C39** an empty text raises IndexError. **C41** wildcards cover any number of labels, names of any type are compared, certificates without common name raise KeyError.
* **C42** the DN line is never folded. **C43** a safe string with a final newline is written in clear and does not read back; values are stripped when read.
  **C44** modify values with a colon or in base64 are refused; an empty line after the version line, empty values and empty text raise; `:<` anywhere starts a URL fetch;
  controls without value are refused, their clear-text values are decoded as base64, and a comment line after one is an error; earlier records stay applied.
* **C45** RDN values are not escaped; DNs are cut at escaped commas; a DN of one RDN cannot be changed; a new RDN without `=` is applied on the server and then raises.
  **C46** `find('*')` is a presence filter; metacharacters are not escaped; more than two matches give LDAPError. **C48** no percent-decoding; only unsupported
  non-critical extensions make the search raise AttributeError with the connection left open.
* **C49** a refused global configuration stays partly applied; loading consumes `start_tls` and binds, so that loading again connects in clear and unbound; `default_filter_syntax`
  is always refused, the word under `filter_syntax` makes every search raise; a non-empty `extensions` list always raises.
* **C50** user names with commas become other fields; a triple with a trailing newline is accepted. **C51** cyclic netgroups raise RecursionError, diamonds list users twice, object-level
  `get_users`/`get_hosts` always raise. **C67** text such as `(cn=a)) OR (cn=*` escapes the nisNetgroup restriction in unified syntax.
* **C52** replacing under another spelling keeps the old values; removing the last description sends nothing; a refused modification stays in the extension. The documented `descattrs.get_attr` does not exist: values are read by indexing (`c52_lookup_partial`).
* **C53** requiring a package and then its submodule registers twice; a package's own elements are never registered when a submodule's were collected first.
* **C54** replacing with an empty list is ignored by default. **C57** see `Props/Syntax.lean`: trailing newline accepted everywhere, Integer refuses 0, misspelt words, missing anchors.
* **C58** a cookie whose octets do not decode is shown as `''`, i.e. as "no more pages". **C65** keywords `dn`, `self`, `ldap_conn`, `attrs_dict` are accepted and make iteration raise.
* **C69** descriptions with several extensions, with an empty `( )` list or with lower-case keywords are refused; numbers with leading zeros are accepted;
  an attribute type without NAME is refused (an object class is not); DESC is not kept.
* **C68** an extension refused for its name has been set up (its schema and controls registered) all the same.
* **C70** `ssl_verify=True` is ignored when the socket is shared with an object that opened it without verification.
* **C71** answers that arrived in plain text before the StartTLS response are accepted as answers to queries sent through TLS (the new root DSE can be forged);
  an intermediate response counts as the grant; after a certificate for another host `start_tls()` raises but the connection stays usable with that peer.
* **C72** IPv6 literals without port and URIs with a slash after the port raise ValueError; schemes are compared case-sensitively. **C73** an intermediate response is taken for the answer.
* **C75** a value of a type with `distinguishedNameMatch` is never found among others, even in the same spelling, so `delete_attrs` of a member does nothing and `add_attrs` adds it again;
  a value of a type with `generalizedTimeMatch` is always found when there is any value; types without an equality rule raise LDAPSchemaError where values are compared.
* **C78** names of attributes must be spelled exactly as the classes spell them (`objectclass` or `SN` are refused), also where the class and the definition of the attribute differ: `telephonenumber` in
  documentSeries, `internationaliSDNNumber` in domain and rFC822localPart, `x500uniqueIdentifier` in inetOrgPerson, `ditContentRules` in subschema (**C76**). `extensibleObject` permits nothing.
* **C77** lengths in attribute type descriptions (suggested minimum upper bounds in RFC 4512) are enforced as maxima: a `mail` or `uid` of more than 256 characters is refused. A `searchGuide` without
  object class is refused; an unclosed parenthesis in a guide raises ValueError; text after a comparison, empty terms and stray `)` are accepted. DIT content rules may not have `MAY`; `OBSOLETE` of DIT
  rules needs two spaces after it; extensions of descriptions must be set off by exactly one space; a matching rule may have several syntaxes. Text values of Binary, Certificate and JPEG are refused.
* **C74** `generalizedTimeMatch` finds any two times equal; `objectIdentifierMatch` distinguishes casings and does not know that `cn` is `2.5.4.3`; `caseIgnoreListMatch` misses addresses that differ in spaces around
  a line break (`Main Street $Town`, `main street$Town`); the rules for first components compare with the whole value; `uniqueMemberMatch` compares texts.
* **C79** RFC 4511 section 5.1 (3) wants TRUE written as FF; pyasn1's BER encoder writes 01. So no request with a critical control, with `attrs_only`, DN attribute matching or removal of the old RDN
  follows the RFC (`c79_true_not_ff`; `c79_strict_partial` says that nothing else deviates).
* **C80** a component behind the ones declared in a SEQUENCE is not ignored but makes decoding fail (`c80_extension_refused`), against RFC 4511 section 4.
* **C82** a success response binds the connection without the mechanism being asked: it may be incomplete, and credentials that come with success (by which the server proves itself in DIGEST-MD5 or SCRAM) are
  not given to it (`c82_unchecked`). Every request of the exchange goes through `wrap`, so a mechanism that completes with its last answer sends that answer protected, before the server expects it (`c82_layer_early`).
* **C83** each piece that `recv` returns is unwrapped by itself, so a protected buffer that arrives in parts, or two in one piece, cannot be read (`c83_cut`); no length is written before a buffer (`c83_sent`).
- C85: `refresh`, `refresh_all` never remove an attribute: one that the server no longer has is still shown with its old
  values (`c85_deleted_stays`), so `refresh_all` does not make the object equal to the entry. `has_object_class` answers
  from the classes known locally, however old (`c85_class_stale`), and raises `KeyError` if the server shows no
  `objectClass`.
- C86: `format_mod_ldif` writes values as they are, without base64: the line of a text value means the value exactly when it
  is a SAFE-STRING (`c86_line_iff`), that of a binary value never (`c86_binary_never`: it is Python's `b'...'`). A newline in a
  value starts another change or another record, even the deletion of another entry (`c86_injection`, `c86_counterexamples`).
  A staged `DELETE_ALL` makes it raise `TypeError` (`c86_delete_all`).
- C87: `LDAP.add` tags its object before the request is sent: when the server refuses, the tag stays taken and a second try
  with it raises `TagError` without asking the server (`c87_failed_add_keeps_tag`). `search` accepts the keywords `dn`,
  `attrs_dict`, `ldap_conn` and `self`: the request is sent and the `TypeError` comes with the first result, or never; a `tag` given
  to a search with two results tags the first and raises `TagError` (`c87_keyword_findings`).
- C88: no new disagreement; the exclusions are those of C10.
- C89: an extended operation returns the value of an intermediate response as if it were the answer (c89_intermediate); a message that arrives before its request is written is queued and taken as the answer later (c89_early_answer); `refresh` does not look at the DN of the entry it gets (c89_other_entry).
- C90: an exception while a search result is iterated (a tag in use, a reserved keyword) drops the octets that were received but not read; what arrives later is then taken for the beginning of a message. A value of an attribute can so become the response to the next call: `delete` returns although the server refused it (c90_cut_short_witness).
- C91: with a `current` object that shows values the entry no longer has, `add_attrs` sends nothing for those values and returns: they are not added (c91_stale_witness). With `ignore_empty_list` an empty list is skipped by `delete_attrs` and `replace_attrs`, against their documentation ("Specifying a 0-length entry will delete all values"); C91 is stated for calls without such lists in that case.
- C92: with `strict_modify` the object that `get` made must show the attributes named if the entry has them (an operational attribute is not read by `*`), otherwise the object returned shows only what was added. When `get` finds a reference to another server, add_or_mod_add_if_exists raises AttributeError and add_if_not_exists returns a SearchReferenceHandle, against "Always returns an LDAPObject" (c92_reference).
- C93: an empty list given to add_attrs for an attribute that the entry does not have raises ValueError (for one that the entry has, it is accepted and does nothing); in strict mode without a current object add_attrs and delete_attrs may fail on values that the entry has or lacks.
- C94: a connection that ignores empty value lists drops `delete: attr` and `replace: attr` without values from the records of a file silently (the file is applied only in part); the forms that the reader refuses or misreads are those of C44.
- C95: a transaction that has fetched an attribute which its object has not leaves, when committed, the object with an incomplete attribute (only the values added); and commit can raise KeyError after the server has made the changes, which then are still staged and would be sent again (witnesses `c95_original_shows_less`, `c95_raises_after_change`). A call that has to fetch an attribute that the transaction itself has removed gets the removed values back (C59). `refresh` of a transaction shows the server's values again although its changes are still staged (`c95_refresh_hides`).
- C96: a server that answers the request for the root DSE with a continuation reference makes the constructor raise AttributeError, not an LDAP exception, unless references are fetched (witness `c96_reference`).
- C97: sasl_bind may raise (its check of the server's mechanisms after the bind) although the server has accepted and the connection is bound: a second bind is refused, calls are made with the new identity (witness `c97_bound_though_raised`). who_am_i on a closed connection raises OSError, not LDAPConnectionError (an example shows it).
- C98: pop of a key in another casing raises KeyError although the key is `in` the dictionary; objects that show the same are not equal if an attribute name or the DN is spelled differently or values are in another order (`c98_spelling`); objects in which a name was written in two casings can be equal and give different values (`c98_equal_but_different`).
- C99: when a message of a search result arrives in two pieces and another call is made in between, that call begins to read in the middle of the message: `delete` returns although the server refused it, and the loop takes the refusal for an attribute value and shows a value that the server does not have (c99_cut_witness).
- C100: for an entry whose RDN value has an escaped comma, such as `cn=a\,b` below `o`, `rename` asks the server to move the entry below `b,o`, and the object takes the name `cn=c,b,o` (c100_escaped_comma_witness).
- C101: `replace_users` and `replace_hosts` do not replace the members as a whole: a list without member groups (also the empty list) leaves the member groups in place, a list of member groups only leaves the triples (c101_replace_leaves). If member groups form a cycle, `get_users` and `get_hosts` raise (c101_cycle).
- C102: in the unified syntax, the default, a text such as `(cn=a)) OR (cn=*` closes the conjunction it is pasted into, and entries that are not netgroups are found (c102_unified_witness); a text in unified syntax such as `(cn=a) AND (cn=b)`, which the connection's own search takes, is refused (c102_unified_refused); on a connection whose default is the simple syntax every search raises (c102_simple).
- C103: `get_users` and `get_hosts` of an object never return: they hand over the extension in place of the object (c103_names_raise). An object whose entry has no object class at all raises `KeyError` instead of being refused. As in C101, `replace_…` leaves the attribute for which the list has no value.
- C104: the extension keeps what it read when it was first used: an unstructured description that the entry has got since, also through the same object, is removed by the next modification (c104_stale). A refused modification stays in the extension and is carried out by the next one (c104_history_partial says so; C52 c52_refused_kept). Deleting the last description sends nothing (C52 c52_last_kept). The guide's `descattrs.get_attr` does not exist.
- C105: an `AttrsDict` keeps the caller's list itself, so that a number put into it afterwards is shown (c105_shared). `setdefault` of an object returns the argument and not the stored copy: `obj.setdefault('cn', []).append(v)` is lost (c105_setdefault_lost). `DELETE_ALL` in an update of an object passes the check and raises `TypeError` half-way, with the items before it taken over (c105_update_cut).
- C106: an intermediate response to the request is taken for an acceptance, and the handshake is begun (c106_intermediate). If the root DSE cannot be read after the handshake, `start_tls` raises although TLS is on, and what was learned before TLS stays in use (constructor `bare` of `Ends`; example).
- C107: `_run_validation` swallows the AttributeError that validating values of an undescribed attribute raises (base.py:1212-1217), and validation stops there: what follows in the same modify is not looked at. A change of `createTimestamp` is refused before a change of `favouriteDrink` and sent after it (c107_unknown, c107_order; constructor `unknown` of `LetThrough`).
- C108: `extensibleObject` answers that it allows every attribute, but the validator does not ask: an object of that class with a `cn` is refused (c108_extensible). Attribute names are compared with their case: `description` is allowed for a person, `Description` is not (same theorem).

## What is assumed of pyasn1 (C79-C81)

`modules/pyasn1` is an empty submodule here (a fork of pyasn1). Assumed: the BER encoder writes definite, shortest lengths, TRUE as 01, leaves out components equal to their default, keeps the order in
which SET OF elements were added; implicit tagging keeps the primitive/constructed bit of the type that is tagged; a value outside a `subtypeSpec` range is refused; the decoder reports
`SubstrateUnderrunError` for every proper prefix of an element and refuses components it does not know; text conversion of octets that are not UTF-8 raises `UnicodeDecodeError`.
Not modelled: indefinite lengths and constructed strings (the decoder takes them, the encoder does not write them; RFC 4511 5.1 forbids both), OIDs that are not ASCII, negative limits.
