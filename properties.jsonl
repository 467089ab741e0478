{"id": "C01", "title": "Case-insensitive dictionary lookups return the latest write", "statement": "After any sequence of item assignments, deletions, setdefault, update and clear calls on a CaseIgnoreDict, d[k], d.get(k) and `k in d` agree, for a key spelled in any casing, with the most recent surviving write to any casing of that key; del of an absent key raises KeyError and changes nothing.", "quantifier": "every operation history, every key casing, every value", "why_tests_cant": "Histories and casings are unbounded; a test checks a handful of histories.", "anchors": ["laurelin/ldap/utils.py: CaseIgnoreDict"]}
{"id": "C02", "title": "Iterating a case-insensitive dictionary shows each key once with its current value", "statement": "Iterating (keys, items, len, deepcopy, iterattrs) a CaseIgnoreDict/AttrsDict after any history yields every key that is `in` the dictionary exactly once, paired with the value lookup returns, and nothing else.", "quantifier": "every operation history", "why_tests_cant": "The failing histories need two casings of one key in a particular order; no sample shows absence.", "anchors": ["laurelin/ldap/utils.py: CaseIgnoreDict.__setitem__, __delitem__", "laurelin/ldap/attrsdict.py: AttrsDict.deepcopy, iterattrs"]}
{"id": "C03", "title": "Attribute dictionary membership means 'has a value'", "statement": "For any AttrsDict, `attr in d` is true exactly when d.get_attr(attr) is a non-empty list, in any casing of attr, and iterattrs yields exactly one pair per stored value in order.", "quantifier": "every attribute dictionary and attribute name", "why_tests_cant": "Quantifies over all dictionaries.", "anchors": ["laurelin/ldap/attrsdict.py: AttrsDict.__contains__, get_attr, iterattrs"]}
{"id": "C04", "title": "Attribute value lists follow the schema's equality when searching, counting and removing", "statement": "For a value list of an attribute type with an equality rule, `v in l`, l.count(v) and l.index(v) agree with 'some stored value matches v'; index returns the first match; l.remove(v) deletes exactly that one value and keeps the others in order, and raises ValueError leaving the list unchanged when none matches.", "quantifier": "every value list, every value, every matching relation", "why_tests_cant": "All lists and all matching relations.", "anchors": ["laurelin/ldap/attrvaluelist.py: AttrValueList", "laurelin/ldap/attributetype.py: AttributeType.index, DefaultAttributeType.index"]}
{"id": "C05", "title": "add_attrs sends exactly the values not already known", "statement": "The modify operations computed for adding new attribute values contain, for each attribute in order, exactly the requested values that match no currently known value; a known value is never re-added; and applying them to the known state gives every requested value.", "quantifier": "every current attribute state, every requested addition, every matching relation", "why_tests_cant": "All states and additions.", "anchors": ["laurelin/ldap/modify.py: AddModlist", "laurelin/ldap/attributetype.py: AttributeType.index"]}
{"id": "C06", "title": "delete_attrs sends exactly the values known to exist", "statement": "The modify operations computed for deleting attribute values mention only attributes currently present and only values matching a current value, include every such requested value in order, and turn an empty value list into a delete-all of that attribute only when the attribute is present.", "quantifier": "every current attribute state and requested deletion", "why_tests_cant": "All states and deletions.", "anchors": ["laurelin/ldap/modify.py: DeleteModlist"]}
{"id": "C07", "title": "A Mod can never be an ADD without values", "statement": "Constructing modify operations from a dictionary fails with ValueError iff the operation is ADD and some attribute has an empty list or DELETE_ALL; otherwise it produces one Mod per attribute, in order, with a bare value wrapped into a one-element list.", "quantifier": "every operation, attribute dictionary", "why_tests_cant": "All dictionaries.", "anchors": ["laurelin/ldap/modify.py: Mod.__init__, Modlist"]}
{"id": "C08", "title": "A modify request carries exactly the non-ignored changes, in order, at most once", "statement": "LDAP.modify sends at most one request; the request holds the given mods in order, where DELETE_ALL is sent as an empty value list, and an empty REPLACE/DELETE list is dropped (ignore_empty_list), kept, or rejected (error_empty_list) as the options say; when it rejects, or nothing is left, nothing is sent.", "quantifier": "every modlist, every combination of empty-list options", "why_tests_cant": "All modlists and all option combinations.", "anchors": ["laurelin/ldap/base.py: LDAP.modify"]}
{"id": "C09", "title": "Validation runs before anything is sent", "statement": "If any active validator rejects a modify or add, the call raises that validator's error and no request reaches the server; the validators run in order and the first rejection wins; if all accept, validation does not alter the request.", "quantifier": "every list of validators, every request", "why_tests_cant": "All validator lists and requests.", "anchors": ["laurelin/ldap/base.py: LDAP.modify, LDAP.add, _run_validation, validate_modify, validate_object"]}
{"id": "C10", "title": "Local object state mirrors the server after a successful modify", "statement": "After obj.modify/add_attrs/replace_attrs/delete_attrs succeeds, the object's local attributes equal what RFC 4511 modify semantics gives when the same request is applied to a server entry that held the object's previous attributes.", "quantifier": "every object state and modlist", "why_tests_cant": "All states and modlists; failures need particular empty-list or repeated-delete combinations.", "anchors": ["laurelin/ldap/ldapobject.py: LDAPObject.modify, _local_modify, _delete_attr_value", "laurelin/ldap/base.py: LDAP.modify"]}
{"id": "C11", "title": "A failed modify leaves the local object unchanged", "statement": "If the server rejects a modify, or validation rejects it, the LDAPObject's local attributes are exactly as before.", "quantifier": "every object, modlist and failure", "why_tests_cant": "All failure points.", "anchors": ["laurelin/ldap/ldapobject.py: LDAPObject.modify"]}
{"id": "C12", "title": "Add-then-delete through the smart methods is safe", "statement": "If the local state is the server's state, requests produced by obj.add_attrs with pairwise distinct values never make an RFC 4511 server answer attributeOrValueExists, and requests produced by obj.delete_attrs with pairwise distinct values never make it answer noSuchAttribute.", "quantifier": "every synchronized state and request", "why_tests_cant": "All states.", "anchors": ["laurelin/ldap/ldapobject.py: LDAPObject.add_attrs, delete_attrs", "laurelin/ldap/modify.py: AddModlist, DeleteModlist"]}
{"id": "C13", "title": "A modify transaction sends nothing until commit, and then everything once and in order", "statement": "Between entering a ModTransaction and commit, no modify is sent and the original object is unchanged, whatever modifications are made; commit issues one modify whose list is the concatenation of all staged changes in order, and empties the staged list.", "quantifier": "every sequence of staged modifications and commits", "why_tests_cant": "All operation sequences.", "anchors": ["laurelin/ldap/ldapobject.py: ModTransactionObject, LDAPObject.mod_transaction"]}
{"id": "C14", "title": "Leaving a transaction without commit discards staged changes", "statement": "Exiting the transaction context drops changes staged since the last commit: they are never sent, then or by a later commit; entering a nested checkpoint and leaving it without committing leaves the outer transaction's staged list unchanged, while committing it appends exactly its staged changes.", "quantifier": "every sequence of operations and nesting depth", "why_tests_cant": "All sequences and nestings.", "anchors": ["laurelin/ldap/ldapobject.py: ModTransactionObject.commit, __exit__, modify"]}
{"id": "C15", "title": "Disabling validation is scoped", "statement": "Inside disable_validation the active validators are exactly the previously active ones minus the named classes (all of them when none named), in order; on exit, normal or exceptional, the previous validators are active again, for any nesting of such contexts.", "quantifier": "every validator list, every set of disabled names, every nesting", "why_tests_cant": "All nestings.", "anchors": ["laurelin/ldap/validation.py: DisabledValidationContext", "laurelin/ldap/base.py: LDAP.disable_validation"]}
{"id": "C16", "title": "Unified filter syntax accepts every standard filter with the same meaning", "statement": "If a string parses as an RFC 4515 standard filter to some filter, parsing it in unified syntax gives the same filter.", "quantifier": "every input string", "why_tests_cant": "All strings.", "anchors": ["laurelin/ldap/filter.py: parse_standard_filter, parse (unified)"]}
{"id": "C17", "title": "Unified filter syntax accepts every simple filter with the same meaning", "statement": "If a string parses in laurelin's simple syntax to some filter, parsing it in unified syntax gives the same filter.", "quantifier": "every input string", "why_tests_cant": "All strings.", "anchors": ["laurelin/ldap/filter.py: parse_simple_filter, parse (unified)"]}
{"id": "C18", "title": "Printing a filter and parsing it gives the filter back", "statement": "For every well-formed filter, converting it to an RFC 4515 string and parsing that string (standard or unified) yields the same filter.", "quantifier": "every well-formed filter of any depth and width", "why_tests_cant": "Filters are unboundedly deep and wide.", "anchors": ["laurelin/ldap/filter.py: rfc4511_filter_to_rfc4515_string, parse_standard_filter"]}
{"id": "C19", "title": "An escaped value cannot change a filter's structure", "statement": "For any string v, interpolating escape(v) as the value of an equality comparison gives a filter that parses to exactly one equality comparison on that attribute.", "quantifier": "every value string", "why_tests_cant": "Injection is about all adversarial strings.", "anchors": ["laurelin/ldap/filter.py: escape, parse"]}
{"id": "C20", "title": "Escaping is faithful", "statement": "The value a server compares against when given escape(v) is v: decoding the escape sequences of escape(v) gives v back, and distinct values have distinct escaped forms; and escape sequences in a filter are decoded before the value is sent.", "quantifier": "every value string", "why_tests_cant": "All strings; failing ones contain a backslash.", "anchors": ["laurelin/ldap/filter.py: escape, _handle_rfc4515_ava"]}
{"id": "C21", "title": "Simple filter syntax has conventional boolean precedence", "statement": "In simple syntax NOT applies to the parenthesised group following it, AND binds tighter than OR, parentheses override, and evaluating the resulting filter on any entry equals evaluating the written boolean expression.", "quantifier": "every boolean expression over comparisons, every entry", "why_tests_cant": "All expressions.", "anchors": ["laurelin/ldap/filter.py: _handle_simple_filter, _handle_component, _handle_term"]}
{"id": "C22", "title": "Filters may name attributes and rules by any numeric OID", "statement": "Every well-formed numeric OID is accepted as an attribute description in a filter.", "quantifier": "every numeric OID", "why_tests_cant": "OIDs are unbounded; failures are those with a multi-digit arc.", "anchors": ["laurelin/ldap/filter.py: number/numericoid grammar"]}
{"id": "C23", "title": "Responses are routed to their request, complete and in order", "statement": "For every way the server's bytes are split into chunks and every interleaving of responses for different message ids, the messages delivered to the reader of an id are exactly the ones the server sent with that id, in order.", "quantifier": "every message sequence, chunking and interleaving of readers", "why_tests_cant": "All chunkings and interleavings.", "anchors": ["laurelin/ldap/net.py: LDAPSocket.recv_messages, recv_one"]}
{"id": "C24", "title": "Message ids are never reused on a connection", "statement": "Every request sent on a socket, by any of the LDAP objects sharing it, carries a message id not used before on that socket, strictly increasing from 1.", "quantifier": "every sequence of requests", "why_tests_cant": "All histories.", "anchors": ["laurelin/ldap/net.py: LDAPSocket.send_message, _prep_message"]}
{"id": "C25", "title": "A shared socket is closed exactly when its last user unbinds", "statement": "For any interleaving of connects and unbinds by LDAP instances reusing a connection to the same host, where each instance unbinds at most once, the socket stays open while some instance still uses it and is closed when the last one unbinds; afterwards a new connection is opened, never a closed one reused.", "quantifier": "every interleaving of connect/unbind", "why_tests_cant": "All interleavings.", "anchors": ["laurelin/ldap/base.py: LDAP.__init__, unbind", "laurelin/ldap/net.py: LDAPSocket"]}
{"id": "C26", "title": "Bind state machine", "statement": "A bind is only attempted on an unbound, open connection; a successful bind leaves the connection bound, a failed one leaves it not bound; every operation on an unbound (closed) connection raises ConnectionUnbound without sending.", "quantifier": "every sequence of bind/unbind/operation calls and server answers", "why_tests_cant": "All histories.", "anchors": ["laurelin/ldap/base.py: simple_bind, sasl_bind, unbind, _success_result"]}
{"id": "C27", "title": "SASL mechanism downgrade is detected", "statement": "If the server advertises a different mechanism list after a SASL bind, that list having been obtained before the bind, the client reports a downgrade and is not left bound; mechanism negotiation only ever selects a mechanism both sides offer.", "quantifier": "every pair of advertised lists", "why_tests_cant": "All lists.", "anchors": ["laurelin/ldap/base.py: recheck_sasl_mechs, get_sasl_mechs, sasl_bind"]}
{"id": "C28", "title": "Tags identify at most one object", "statement": "Over any sequence of object creations with tags, tag(t) returns the object that was created with tag t, a second creation with the same tag is refused and leaves the first in place, and an unknown tag raises TagError.", "quantifier": "every creation sequence", "why_tests_cant": "All sequences.", "anchors": ["laurelin/ldap/base.py: LDAP.obj, tag"]}
{"id": "C29", "title": "get and exists decide by the number of results", "statement": "get returns the entry iff the search gave exactly one, raises NoSearchResults for none and MultipleSearchResults for more; exists is true iff there is at least one entry and false iff there is none (including noSuchObject).", "quantifier": "every result list", "why_tests_cant": "All result lists.", "anchors": ["laurelin/ldap/utils.py: get_one_result", "laurelin/ldap/base.py: LDAP.get, exists"]}
{"id": "C30", "title": "Request controls are attached exactly as requested", "statement": "process_kwds turns each keyword naming a registered control for the method into one control with the requested criticality (explicit critical/optional wrapper, else the default), leaves every other keyword untouched, and refuses controls that are unsupported-but-critical or not applicable to the method.", "quantifier": "every set of registered controls, keywords and server capabilities", "why_tests_cant": "All combinations.", "anchors": ["laurelin/ldap/controls.py: process_kwds, Control, critical, optional"]}
{"id": "C31", "title": "Response controls are stored under their registered name", "statement": "handle_response sets, for each response control whose OID is registered, the attribute named by its class to its decoded value, and raises for an unregistered critical control; non-critical unknown ones are ignored.", "quantifier": "every list of response controls", "why_tests_cant": "All lists.", "anchors": ["laurelin/ldap/controls.py: handle_response"]}
{"id": "C32", "title": "Schema registries are consistent", "statement": "After any sequence of registrations, looking an element up by OID or by any of its names (attribute types and object classes: any casing) returns the same element, and registering a second element under a used OID or name is refused without changing what lookups return.", "quantifier": "every registration sequence", "why_tests_cant": "All sequences.", "anchors": ["laurelin/ldap/attributetype.py: AttributeType.register, get_attribute_type", "laurelin/ldap/objectclass.py: ObjectClass.register, get_object_class", "laurelin/ldap/rules.py: SyntaxRule, MatchingRule"]}
{"id": "C33", "title": "Required and allowed attributes are inherited from every ancestor class", "statement": "An object class's must (may) list contains exactly the attributes that it or some transitive superclass requires (allows), for any superclass graph, including repeated evaluation.", "quantifier": "every superclass graph and evaluation order", "why_tests_cant": "All graphs.", "anchors": ["laurelin/ldap/objectclass.py: ObjectClass.must, may"]}
{"id": "C34", "title": "Attribute types inherit unspecified properties from the supertype", "statement": "An attribute type without its own equality rule or syntax behaves as its nearest ancestor that defines it.", "quantifier": "every supertype chain", "why_tests_cant": "All chains.", "anchors": ["laurelin/ldap/attributetype.py: AttributeType.__getattr__"]}
{"id": "C35", "title": "Schema validation accepts an object iff it conforms", "statement": "SchemaValidator.validate_object succeeds iff the object has an objectClass attribute, every attribute required by its classes is present, every attribute is allowed by some class (or extensibleObject), single-valued attributes have one value, no-user-modification attributes are not written, and every value satisfies its syntax.", "quantifier": "every object and schema", "why_tests_cant": "All objects and schemas.", "anchors": ["laurelin/ldap/schema.py: SchemaValidator", "laurelin/ldap/attributetype.py: AttributeType.validate"]}
{"id": "C36", "title": "Values equal under an equality rule are interchangeable", "statement": "For each string matching rule, matching is reflexive on acceptable values, symmetric and transitive, so it is an equivalence; and values differing only in what the rule ignores (case, surrounding/repeated spaces, hyphens) match.", "quantifier": "every pair and triple of values", "why_tests_cant": "All strings.", "anchors": ["laurelin/ldap/rules.py: MatchingRule.match, prepare", "laurelin/extensions/base_schema.py: caseIgnoreMatch etc.", "laurelin/ldap/rfc4518.py"]}
{"id": "C37", "title": "Prohibited characters are rejected wherever they occur", "statement": "String preparation raises ProhibitedCharacterError exactly when the value contains a prohibited character, at any position.", "quantifier": "every string", "why_tests_cant": "All strings and positions.", "anchors": ["laurelin/ldap/rfc4518.py: Prohibit"]}
{"id": "C38", "title": "Distinguished names compare by RDN", "statement": "distinguishedNameMatch accepts two DNs exactly when they have the same number of RDNs and corresponding RDNs hold equal attribute-value pairs.", "quantifier": "every pair of DNs", "why_tests_cant": "All pairs.", "anchors": ["laurelin/extensions/base_schema.py: DistinguishedNameMatch"]}
{"id": "C39", "title": "Closing parenthesis search is correct", "statement": "find_closing_paren(s) returns the index of the parenthesis that balances the first character, the first position where the depth returns to zero; it raises ValueError iff s does not start with '(' or no such position exists.", "quantifier": "every string", "why_tests_cant": "All strings.", "anchors": ["laurelin/ldap/utils.py: find_closing_paren"]}
{"id": "C40", "title": "Phone numbers are accepted by their digits only", "statement": "validate_phone_number accepts a string iff, ignoring everything but digits and plus signs, it is an optional plus followed by 7 to 15 digits.", "quantifier": "every string", "why_tests_cant": "All strings.", "anchors": ["laurelin/ldap/utils.py: validate_phone_number"]}
{"id": "C41", "title": "TLS certificates are matched against the host", "statement": "check_hostname succeeds iff the certificate's common name or a DNS subject alternative name equals the host, or is a wildcard for it covering exactly one leading label.", "quantifier": "every certificate name set and host name", "why_tests_cant": "All names.", "anchors": ["laurelin/ldap/net.py: LDAPSocket.check_hostname"]}
{"id": "C42", "title": "LDIF line folding is reversible and bounded", "statement": "Every physical line of the LDIF output is at most 76 characters, every continuation line starts with a single space, and unfolding gives the logical line back.", "quantifier": "every attribute value", "why_tests_cant": "All lengths and contents.", "anchors": ["laurelin/ldap/ldapobject.py: LDAPObject.format_ldif", "laurelin/ldap/base.py: LDAP.process_ldif"]}
{"id": "C43", "title": "LDIF values survive a write/read round trip", "statement": "A value written by format_ldif is written in clear only when it is a SAFE-STRING without trailing space, otherwise base64; reading the line back yields the value.", "quantifier": "every value", "why_tests_cant": "All values, including those ending in newline.", "anchors": ["laurelin/ldap/ldapobject.py: LDAPObject.format_ldif"]}
{"id": "C44", "title": "LDIF change records are applied as written", "statement": "process_ldif performs exactly the changes the record describes: for changetype modify, the operations in order with all their values, whatever characters the values contain.", "quantifier": "every change record", "why_tests_cant": "All records.", "anchors": ["laurelin/ldap/base.py: LDAP.process_ldif"]}
{"id": "C45", "title": "DN composition", "statement": "Renaming or moving an object gives the DN formed from the new RDN and the (new or old) parent DN, and rdn(x)/obj(rdn) always build '<attr>=<value>,<base>' from the object's own DN.", "quantifier": "every DN and RDN", "why_tests_cant": "All strings, including escaped commas.", "anchors": ["laurelin/ldap/ldapobject.py: LDAPObject.rdn, mod_dn, rename, move, obj", "laurelin/ldap/base.py: LDAP.mod_dn, rename, move"]}
{"id": "C46", "title": "find() looks up one RDN value, not a pattern", "statement": "obj.find(rdn) searches for the entry whose RDN value is the given string, for any string.", "quantifier": "every RDN string", "why_tests_cant": "Adversarial strings such as '*' or parentheses.", "anchors": ["laurelin/ldap/ldapobject.py: LDAPObject.find"]}
{"id": "C47", "title": "Domain and base DN conversion", "statement": "dc(domain) is the dc= DN with one component per label in order; domain(dc(d)) = d.", "quantifier": "every domain name", "why_tests_cant": "All strings.", "anchors": ["laurelin/ldap/__init__.py: dc, domain"]}
{"id": "C48", "title": "LDAP URLs are parsed into their components", "statement": "An LDAPURI built from scheme, host, dn, attributes, scope, filter and extensions yields those components with RFC 4516 defaults for the omitted ones; a critical unsupported extension is refused.", "quantifier": "every component combination", "why_tests_cant": "All strings.", "anchors": ["laurelin/ldap/base.py: LDAPURI.__init__"]}
{"id": "C49", "title": "Global configuration is applied completely or refused", "statement": "set_global_config assigns each recognised parameter, spelled in any casing, and refuses unrecognised ones; loading the same configuration twice gives connections set up the same way.", "quantifier": "every configuration dictionary", "why_tests_cant": "All dictionaries.", "anchors": ["laurelin/ldap/config.py: normalize_global_config_param, set_global_config, create_connection"]}
{"id": "C50", "title": "Netgroup triples are built and read back consistently", "statement": "For any host and user free of commas and domain free of ')', the triple built for them is recognised as a triple and yields the same fields; only triples are recognised. Adding, replacing or deleting members turns each entry of the member list into exactly one value, in order and none lost: '+name' a member netgroup, a full triple itself, a plain name the triple of that user (host) with the default domain, a tuple the triple of its fields; the first entry that is none of these raises and nothing is sent; names added are read back as the users (hosts) of the group.", "quantifier": "every user/host/domain, every member list", "why_tests_cant": "All strings and lists.", "anchors": ["laurelin/extensions/netgroups.py: _nis_netgroup_triple, _is_triple, _extract_triple_field, _member_user_list_to_attrs, _member_host_list_to_attrs"]}
{"id": "C51", "title": "Netgroup expansion terminates and returns every member reachable", "statement": "Recursive expansion of a netgroup's users (hosts) terminates and returns exactly the users (hosts) named by the netgroup or any netgroup reachable from it, or raises when a reachable netgroup does not exist or holds something that is no triple; without recursion it returns the fields of the group's own triples in order.", "quantifier": "every netgroup graph", "why_tests_cant": "All graphs, including cyclic ones.", "anchors": ["laurelin/extensions/netgroups.py: get_obj_users, get_users, get_obj_hosts, get_hosts"]}
{"id": "C52", "title": "Description attributes round-trip", "statement": "After adding, replacing or deleting structured description attributes, re-reading the description gives exactly the requested key/value sets, and unstructured descriptions are preserved.", "quantifier": "every description list and modification", "why_tests_cant": "All lists.", "anchors": ["laurelin/extensions/descattrs.py: desc_attrs, _modify_desc_attrs, _dict_mod_*"]}
{"id": "C53", "title": "Requiring an extension registers its schema elements once", "statement": "Requiring a schema extension any number of times registers each of its elements exactly once.", "quantifier": "every sequence of require calls over any module set", "why_tests_cant": "All sequences.", "anchors": ["laurelin/ldap/extensible/registration.py: LaurelinRegistrar.require"]}
{"id": "C54", "title": "add_or_mod adds the object or updates the existing one", "statement": "add_or_mod_add_if_exists/add_or_mod_replace_if_exists create the entry when it does not exist, and otherwise add (replace) the given attributes, so that afterwards the entry has every requested value; add_if_not_exists leaves an existing entry untouched.", "quantifier": "every entry state and requested attributes", "why_tests_cant": "All states.", "anchors": ["laurelin/ldap/base.py: add_or_mod_add_if_not_exists, add_or_mod_replace_if_not_exists, add_if_not_exists"]}
{"id": "C55", "title": "compare returns the server's verdict and errors otherwise", "statement": "compare returns True for compareTrue, False for compareFalse and raises LDAPError for every other result code.", "quantifier": "every result code", "why_tests_cant": "Finite but claims all codes, and all message shapes.", "anchors": ["laurelin/ldap/base.py: LDAP.compare"]}
{"id": "C56", "title": "Iterating a search yields every entry once, in order, and stops at the final result", "statement": "For every response sequence, iterating the search handle yields each entry and reference received, in order, then stops exactly at the done message, raising iff its result is neither success nor noSuchObject as documented; nothing after done is consumed.", "quantifier": "every response sequence", "why_tests_cant": "All sequences.", "anchors": ["laurelin/ldap/base.py: SearchResultHandle.__iter__"]}
{"id": "C57", "title": "Syntax rules accept exactly the RFC 4517 language", "statement": "Each modelled syntax rule (Boolean, Integer, IA5/Printable/Numeric/Directory string, BitString, telephone, fax) accepts exactly the values its RFC 4517 production generates.", "quantifier": "every value", "why_tests_cant": "All strings.", "anchors": ["laurelin/extensions/base_schema.py: syntax rules", "laurelin/ldap/rules.py: RegexSyntaxRule.validate"]}
{"id": "C58", "title": "Paged results: the page cookie is passed through verbatim", "statement": "paged=n and paged=(n, '') send the same control value; the control value sent holds exactly the given size and cookie; the cookie the server returns is exactly what the handle exposes as page_cookie, so following cookies until empty visits the concatenation of the server's pages in order.", "quantifier": "every page size, cookie and page sequence", "why_tests_cant": "All sequences and cookies.", "anchors": ["laurelin/extensions/pagedresults.py: PagedResultsControl.prepare, handle"]}
{"id": "C59", "title": "A committed transaction has the same effect as the calls made directly", "statement": "Making a sequence of modify calls inside a transaction and committing leaves the server entry and the local object as making the same calls directly on the object would, when the server accepts them.", "quantifier": "every object state in agreement with the server and every sequence of add_attrs/replace_attrs/delete_attrs/modify calls", "why_tests_cant": "the diffing methods read a local copy that changes with each staged call, so the claim is about all call sequences", "anchors": ["laurelin/ldap/ldapobject.py:ModTransactionObject", "laurelin/ldap/ldapobject.py:LDAPObject.modify"]}
{"id": "C60", "title": "Parsing a standard filter and printing it gives the same text", "statement": "If a string parses as an RFC 4515 standard filter, converting the parsed filter back to a string gives the original string (apart from redundant trailing empty substring components).", "quantifier": "every string accepted by the standard filter parser", "why_tests_cant": "All strings of any nesting depth.", "anchors": ["laurelin/ldap/filter.py: parse_standard_filter", "laurelin/ldap/filter.py: rfc4511_filter_to_rfc4515_string"]}
{"id": "C61", "title": "Control registration is consistent", "statement": "After any sequence of control registrations, a control's keyword and its request OID lead to the same control, no keyword is reserved or empty, a refused registration leaves every earlier control in place and registers nothing of the refused one.", "quantifier": "every sequence of registrations of control classes with arbitrary keywords, methods and OIDs", "why_tests_cant": "holds for every sequence of registrations; tests register a handful", "anchors": ["laurelin/ldap/controls.py: Control.register, get_control"]}
{"id": "C62", "title": "Abandoning an operation", "statement": "Leaving a search's with-block before its end (or raising Abandon in it) sends one abandon request, exits cleanly, and no further results are delivered; leaving it after the end sends nothing.", "quantifier": "every handle state and every sequence of abandon calls and block exits", "why_tests_cant": "ranges over all sequences of events on a handle", "anchors": ["laurelin/ldap/base.py: ResponseHandle.abandon, __exit__", "laurelin/ldap/base.py: SearchResultHandle.__iter__"]}
{"id": "C63", "title": "Extended responses are delivered in order up to the final one", "statement": "Iterating an extended response handle yields every intermediate response in order and then the final response, consumes nothing after it, and raises LDAPError instead of yielding it when success is required and the code is not success.", "quantifier": "every sequence of intermediate responses and every result code", "why_tests_cant": "unbounded sequences and all result codes", "anchors": ["laurelin/ldap/base.py: ExtendedResponseHandle"]}
{"id": "C64", "title": "Write operations succeed exactly on a success result", "statement": "modify, delete, rename/move, bind and add report success iff the server's response is of the expected kind with result code success and processable response controls; every other code raises LDAPError.", "quantifier": "every response", "why_tests_cant": "all result codes and response kinds", "anchors": ["laurelin/ldap/base.py: LDAP._success_result, add"]}
{"id": "C65", "title": "A search sends exactly the search asked for", "statement": "search() sends one request whose base, scope, size limit, time limit, alias handling, types-only flag, filter, attribute list and controls are those of its arguments, with the connection's default wherever an argument was not given (no filter: the default filter, in standard syntax); it sends nothing and raises the documented exception when the connection is unbound, the filter cannot be read in the selected syntax, an attribute name cannot be requested, a control keyword is unacceptable or a keyword is unknown.", "quantifier": "every combination of arguments, connection defaults, registered controls and server capabilities", "why_tests_cant": "all combinations of optional arguments, filter texts and keywords", "anchors": ["laurelin/ldap/base.py: LDAP.search", "laurelin/ldap/controls.py: process_kwds"]}
{"id": "C66", "title": "The base DN of a connection is never guessed", "statement": "The base DN is the one given (or configured), else the server's default naming context, else its only naming context; with none or several naming contexts the constructor raises LDAPError.", "quantifier": "every argument and every root DSE", "why_tests_cant": "all root DSE contents", "anchors": ["laurelin/ldap/base.py: LDAP.__init__"]}
{"id": "C67", "title": "Searching netgroups only returns netgroups", "statement": "netgroups.search(filter) only returns entries whose objectClass is nisNetgroup and that match the given filter, in whichever filter syntax the connection uses; any filter text accepted elsewhere is accepted here.", "quantifier": "every filter text, syntax and entry", "why_tests_cant": "all filter texts, including ones with unbalanced parentheses", "anchors": ["laurelin/extensions/netgroups.py: _netgroup_filter, LaurelinLDAPExtension.search", "laurelin/ldap/filter.py"]}
{"id": "C68", "title": "Built-in-only connections never use third-party extensions; extension names are stable", "statement": "A connection created with built_in_extensions_only, and every object it creates, never imports, sets up or hands out an extension that is not part of laurelin, whatever has been added to the process. Each access to an extension by name on one owner gives the same instance. A name taken by an added extension is never rebound; a conflicting extension is refused. The one-time setup of an extension runs at most once.", "quantifier": "every sequence of add_extension calls and extension accesses by any owners", "why_tests_cant": "All interleavings of additions and accesses.", "anchors": ["laurelin/ldap/extensible/base.py: add_extension, _import_extension, Extensible, ExtensibleClass, ExtensionsBase", "laurelin/ldap/ldapobject.py: LDAPObject.__init__"]}
{"id": "C69", "title": "Schema specifications are read as what they say", "statement": "AttributeType(spec) and ObjectClass(spec) accept every RFC 4512 description however its whitespace is laid out, and the instance has exactly the OID, names, supertype(s), rules, syntax OID and length, flags, usage, required and allowed attributes that the description states (defaults for what it does not state, inheritance from the supertype where there is one). Any other text raises LDAPSchemaError; a text never has two readings.", "quantifier": "every specification text, every layout of whitespace, every description", "why_tests_cant": "Infinitely many texts; optional parts in all combinations; regular-expression backtracking could pair parts in several ways.", "anchors": ["laurelin/ldap/attributetype.py: AttributeType.__init__", "laurelin/ldap/objectclass.py: ObjectClass.__init__, _parse_oids, _parse_attr_list", "laurelin/ldap/rfc4512.py", "laurelin/ldap/protoutils.py: parse_qdescrs", "laurelin/ldap/utils.py: collapse_whitespace"]}
{"id": "C70", "title": "ldaps connections are TLS from the first byte and to the peer asked for", "statement": "Over a connection opened with an ldaps URI everything the client sends goes through TLS, and when certificate verification is on (ssl_verify, the default) to a peer whose certificate is trusted under the CA settings given and names the host of the URI. If the certificate is not trusted or names another host, the constructor raises, nothing has been sent and no connection is left in the process-wide table.", "quantifier": "every URI, certificate, CA setting and history of connections, operations, start_tls and unbind calls by any number of LDAP objects sharing sockets", "why_tests_cant": "All histories of objects sharing sockets; all certificates.", "anchors": ["laurelin/ldap/net.py: LDAPSocket.__init__, _uri_connect, start_tls, check_hostname", "laurelin/ldap/base.py: LDAP.__init__"]}
{"id": "C71", "title": "start_tls protects everything that follows", "statement": "start_tls() returns only if the server granted the request and the TLS handshake with the settings asked for succeeded; from then on, in every history, everything sent on that connection goes through that TLS channel and every answer accepted came through it. If it cannot be done start_tls() raises: when refused the connection stays as it was; after a failed handshake nothing is ever again sent in plain text.", "quantifier": "every server behaviour (messages and their division into chunks, certificate, handshake outcome), every later history of calls", "why_tests_cant": "All server behaviours, including messages sent before the handshake, and all later histories.", "anchors": ["laurelin/ldap/base.py: LDAP.start_tls, send_extended_request, ExtendedResponseHandle", "laurelin/ldap/net.py: LDAPSocket.start_tls, recv_messages"]}
{"id": "C72", "title": "A connection URI leads to the endpoint it names", "statement": "ldap:// and ldaps:// URIs connect to the host at port 389 or 636, or at the port after the last colon; ldapi URIs to the path given, or for ldapi:/// to the first known local socket; a URI without scheme is ldapi for a path and ldap otherwise; other schemes are refused. A connection that cannot be made raises LDAPConnectionError. A new connection has sent nothing and is in plain text unless the scheme is ldaps.", "quantifier": "every URI text and every network", "why_tests_cant": "Infinitely many URIs and file systems.", "anchors": ["laurelin/ldap/net.py: LDAPSocket._parse_uri, _uri_connect, _inet_connect, _unix_connect"]}
{"id": "C73", "title": "Extended operations return the answer to their own request", "statement": "who_am_i() (and any extended operation) raises LDAPSupportError without sending when the root DSE does not list it; otherwise it sends one request, and returns the value of the successful response to it, raises LDAPError when the response is a failure and UnexpectedResponseType when the response is of another kind.", "quantifier": "every root DSE, every sequence of messages received in every chunking", "why_tests_cant": "All interleavings of the responses of concurrent operations.", "anchors": ["laurelin/ldap/base.py: LDAP.who_am_i, LDAP.send_extended_request, ExtendedResponseHandle"]}
{"id": "C75", "title": "An attribute type behaves as its description and those of its supertypes say", "statement": "After attribute type descriptions without shared OIDs or names have been registered, a type is found by its OID and by each of its names in any casing, and nothing else is found; its syntax, length limit and equality rule are those of the nearest type in its line of supertypes that states one; a value is refused exactly when it is longer than the limit or not of the syntax. Asking whether a value is among the values of an attribute, and so the changes computed by add_attrs and delete_attrs, answers by that equality rule: by the words of the value for case-ignore rules, without spaces and hyphens for telephone numbers, literally for types without preparation.", "quantifier": "every set of descriptions (of any number, names, supertype depth), every name, casing, list of values and value", "why_tests_cant": "All schemas with all inheritance chains, and all values.", "anchors": ["laurelin/ldap/attributetype.py: AttributeType, get_attribute_type, AttributeType.index, validate", "laurelin/ldap/rules.py: get_syntax_rule, get_matching_rule, MatchingRule.match", "laurelin/ldap/attrvaluelist.py: AttrValueList"]}
{"id": "C76", "title": "The shipped schema is complete and works in any order of loading", "statement": "The attribute types and object classes shipped with the package (base_schema and netgroups extensions) load without error in whatever order they are read; each type is then found under its name in any casing and has a syntax rule and, apart from a fixed list of types that state none, the equality rule its description names; so comparison of values of any shipped attribute is decided by that rule. Each class requires the attributes the RFCs say and permits attributes under the names they are defined by.", "quantifier": "every order of loading, every casing of a name, all values and value lists", "why_tests_cant": "Factorially many orders of loading (definitions in class bodies are loaded by metaclass side effect), all casings and values.", "anchors": ["laurelin/extensions/base_schema.py", "laurelin/extensions/netgroups.py", "laurelin/ldap/attributetype.py: AttributeType.register"]}
{"id": "C78", "title": "The schema validator accepts exactly the objects that follow the schema", "statement": "After attribute types and object classes have been registered (no shared OIDs or names, no circular inheritance), SchemaValidator.validate_object accepts an object exactly when it has objectClass, every class named is defined or at least a name, every attribute required by a class or one of its superclasses is present, every attribute present is required or permitted by a class of the object or a superclass, and every attribute's values are good: at most one for single-valued types, none to be written for types not modifiable by users, each within the length limit and of the syntax of the type or the nearest supertype that states one. The verdict does not depend on what was validated before.", "quantifier": "every schema, every object, every history of earlier validations", "why_tests_cant": "All schemas, inheritance graphs and objects; classes remember earlier evaluations, so all histories.", "anchors": ["laurelin/ldap/schema.py: SchemaValidator", "laurelin/ldap/objectclass.py: ObjectClass.must, ObjectClass.may, get_object_class", "laurelin/ldap/attributetype.py: AttributeType.validate", "laurelin/ldap/validation.py: Validator"]}
{"id": "C77", "title": "Values of the shipped attributes are accepted exactly when their syntax allows them", "statement": "For every attribute type shipped with the package, under any casing of its name and whatever the order of loading, a text value passes validation exactly when it is in the language RFC 4517 (or RFC 4512 for schema descriptions, RFC 2307 for netgroup triples) gives for the syntax the type has, directly or from its supertype; a refused value raises InvalidSyntaxError.", "quantifier": "every shipped type, casing, order of loading, every text", "why_tests_cant": "All texts, including nested criteria of guides and descriptions of any length; 30 odd syntaxes assembled from regular expressions.", "anchors": ["laurelin/extensions/base_schema.py: syntax rule classes, attribute type texts", "laurelin/ldap/rfc4512.py: *Description", "laurelin/ldap/rules.py: get_syntax_rule", "laurelin/ldap/attributetype.py: AttributeType.validate"]}
{"id": "C74", "title": "Equality rules agree with what the values stand for", "statement": "For an attribute whose equality rule is bitStringMatch, booleanMatch, integerMatch, numericStringMatch, octetStringMatch, telephoneNumberMatch or one of the case rules, `value in obj[attr]` is true exactly when one of the values stands for the same bits, truth value, number, digits, octets, telephone number or words as the one asked for, whatever the lengths of the values and their spelling.", "quantifier": "all values in the languages of RFC 4517 (printable ASCII for the string rules), all lists of values, all casings of the attribute name, all orders of loading the schema", "why_tests_cant": "Values are unbounded; that text comparison is comparison of numbers rests on every integer having one spelling.", "anchors": ["laurelin/extensions/base_schema.py: equality matching rules 1481-1623", "laurelin/ldap/rules.py: MatchingRule.match, EqualityMatchingRule", "laurelin/ldap/attributetype.py: AttributeType.index"]}
{"id": "C79", "title": "Requests are written to the socket as the LDAP messages they stand for", "statement": "Whatever simple_bind, sasl_bind, unbind, search, compare, add, delete, mod_dn, modify, send_extended_request or abandon writes to the socket is a BER encoding, within the restrictions of RFC 4511 section 5.1, of the LDAPMessage with the next message ID, the operation the call stands for with exactly the caller's arguments (text as UTF-8, bytes as they are, filter as parsed, changes in order) and the given controls. Every message within the ranges of RFC 4511 can be sent; one outside is refused before anything is written.", "quantifier": "all calls, all arguments (filters of any depth, any number of attributes, values and controls of any length), all message IDs", "why_tests_cant": "Filters nest without bound, lengths take several forms as contents grow, integers and texts are unbounded.", "anchors": ["laurelin/ldap/rfc4511.py: all types", "laurelin/ldap/protoutils.py: pack", "laurelin/ldap/net.py: LDAPSocket.send_message", "laurelin/ldap/base.py: request methods of LDAP", "laurelin/ldap/filter.py", "laurelin/ldap/controls.py: Control.prepare"]}
{"id": "C80", "title": "Responses are read from the socket as what the server sent, in whatever BER form and chunks", "statement": "Whatever BER encoding (any definite lengths, any octet for TRUE, defaults written or not) the server uses for its responses, whatever chunks they arrive in and however responses to other requests are mixed in: each response is read once and in order for the request it belongs to, with its result code, DN, attribute names and values (text if UTF-8, else bytes), referral URIs and response controls; an incomplete message is never taken for a complete one, another kind of response is reported as unexpected, and components unknown to the client are ignored as RFC 4511 section 4 demands.", "quantifier": "all messages of RFC 4511, all their encodings, all ways to cut the octets, all interleavings", "why_tests_cant": "Encodings of one message are many, messages and interleavings unbounded.", "anchors": ["laurelin/ldap/net.py: LDAPSocket.recv_messages", "laurelin/ldap/protoutils.py: unpack, seq_to_list", "laurelin/ldap/rfc4511.py", "laurelin/ldap/base.py: SearchResultHandle.__iter__, _success_result", "laurelin/ldap/controls.py: handle_response"]}
{"id": "C81", "title": "What a server reads is what the caller asked for, and nothing else", "statement": "No octets are an encoding of two different LDAP messages, nor is an encoding a proper prefix of another's. Hence any server that follows RFC 4511 reads from the octets of a search exactly the caller's base, scope, limits and attributes and the filter that the filter text denotes in the chosen syntax; and two requests that differ in any argument or control send different octets.", "quantifier": "all pairs of messages and encodings; all calls; all filter texts in all three syntaxes", "why_tests_cant": "It is a statement about all pairs of messages.", "anchors": ["laurelin/ldap/rfc4511.py", "laurelin/ldap/base.py: LDAP.search", "laurelin/ldap/filter.py"]}
{"id": "C82", "title": "A SASL bind is the mechanism's exchange, and only a completed exchange binds", "statement": "In sasl_bind every challenge the server sends is given to the mechanism exactly as sent, the mechanism's answers go back in order in bind requests with consecutive message IDs that name the mechanism, and any other result ends the bind with an exception. The connection becomes bound only if the server reports success and the mechanism is complete, having accepted the credentials that came with success; a security layer is applied only after that.", "quantifier": "all mechanisms (as state machines), all sequences of server answers of any length in any BER encodings, all controls", "why_tests_cant": "The number of rounds is unbounded and mechanisms are arbitrary; a malicious server may answer anything at any point.", "anchors": ["laurelin/ldap/base.py: LDAP.sasl_bind", "laurelin/ldap/net.py: LDAPSocket.sasl_process_auth_challenge, _prep_message"]}
{"id": "C83", "title": "A SASL security layer is transparent", "statement": "Under a negotiated security layer what is written is the protected form of the message, in buffers as RFC 4422 section 3.7 wants them, and what the server sends is read as without a layer, whatever messages share a buffer and however the network cuts the octets.", "quantifier": "all layers (as state machines), all messages, all ways to cut the octets", "why_tests_cant": "All ways to cut a stream.", "anchors": ["laurelin/ldap/net.py: LDAPSocket._prep_message, LDAPSocket.recv_messages"]}
{"id": "C84", "title": "Operations one after the other: each writes its own request and ends as its own answer says", "statement": "On a connection without TLS or SASL layer, the n-th of a sequence of binds, comparisons, additions, deletions, renames, modifications and extended operations writes exactly one LDAP message: ID n, the operation the caller asked for, the given controls. Whatever late messages for earlier operations come first, in whatever BER encodings and pieces, the call then ends as its own answer says: success, the truth of the comparison, the text of an extended response, LDAPError for another result code, UnexpectedResponseType for another kind of response.", "quantifier": "all sequences of calls, arguments, controls, answers, late messages, encodings, ways to cut the octets", "why_tests_cant": "Unbounded sequences, contents, encodings and cuts.", "anchors": ["laurelin/ldap/base.py: LDAP._success_result, compare, add, delete, mod_dn, modify, who_am_i", "laurelin/ldap/net.py: LDAPSocket.send_message, recv_one, recv_messages", "laurelin/ldap/protoutils.py"]}
{"id": "C85", "title": "Refreshing an object reads exactly what was selected, once, and shows what the server has", "statement": "obj.refresh(attrs) asks the server once, for the named attributes (all user attributes by default); afterwards every selected attribute shows the server's current values, every other attribute shows what it showed before; a failing refresh changes nothing. refresh_all covers user and operational attributes. refresh_missing asks only for the listed attributes that have no value, in one query, or not at all. has_object_class answers from the classes known, or asks for objectClass alone. Whatever others do to the entry between the calls, the object never shows values the server did not have at a moment when the object was read.", "quantifier": "all objects, entries, selections (names, '*', '+', none), subtype and option coverage, failures, and histories of refreshes interleaved with arbitrary changes by others", "why_tests_cant": "Unbounded histories, other writers, selections and entries.", "anchors": ["laurelin/ldap/ldapobject.py: LDAPObject.refresh, refresh_all, refresh_missing, has_object_class", "laurelin/ldap/base.py: LDAP.get, LDAP.search"]}
{"id": "C86", "title": "The LDIF a transaction shows is the modification it will make", "statement": "format_mod_ldif() of a transaction returns LDIF text that, read by RFC 2849, describes exactly the staged changes of the object, in order with all their values; handing the text to process_ldif makes one modify call with these changes, sending the same request as commit().", "quantifier": "all DNs and all lists of staged changes, with any text or binary values and DELETE_ALL", "why_tests_cant": "Unbounded texts, values and lists of changes.", "anchors": ["laurelin/ldap/ldapobject.py: ModTransactionObject.format_mod_ldif", "laurelin/ldap/base.py: LDAP.process_ldif", "laurelin/ldap/modify.py: Mod.op_to_string"]}
{"id": "C87", "title": "Relative methods act on the entry they name and pass settings on", "statement": "Each of obj, get_child, add_child, delete_child, search, find and compare of an object sends at most one request, and that request is about exactly the named child (its RDN, or rdn_attr=value, joined to the object's DN) or the object itself with the search scope of the method; an object without a connection sends nothing and raises RuntimeError. The objects returned have the settings (relative_search_scope, rdn_attr) given with the call, or those of the object it was called on, through any chain of calls, and objects reached by full RDNs have the joined path as DN. A call that fails leaves no trace in the connection's tags.", "quantifier": "all objects, calls and arguments, all connection states and server answers, all chains of calls", "why_tests_cant": "Unbounded chains of calls on arbitrary states, names and server answers.", "anchors": ["laurelin/ldap/ldapobject.py: LDAPObject.obj, get_child, add_child, delete_child, search, find, compare, _set_obj_kwd_defaults", "laurelin/ldap/base.py: LDAP.obj, LDAP.add, LDAP.get, SearchResultHandle"]}
{"id": "C88", "title": "An object shows what the server at the other end of the connection holds", "statement": "For a new object on a new connection to a server that conforms to RFC 4511 for the object's DN (it reads a request in any encoding, answers in any BER encoding cut into any pieces, makes all changes of a modify request and says so or makes none, sends all values of an attribute it sends, and may refuse anything; its answers to these requests carry no controls and no referral): after any history of refresh, modify, add_attrs, replace_attrs and delete_attrs, each with acceptable values, without the empty lists and clearings excluded in C10 and about attributes fetched or replaced, every attribute that the object shows has exactly the server's octets, in order, as text where they are UTF-8. A modify that returns has made exactly the changes asked for; one that raises has changed neither the object nor the entry. An add_attrs, replace_attrs or delete_attrs that returns has made the entry have, for the attributes named, its old values followed by the new ones that were not there; the values given; its old values without those given (none if none are given), and has left all other attributes alone; one that raises has left the entry alone. A refresh that returns shows the attributes named.", "quantifier": "all conforming servers, all encodings and fragmentations, all histories of such calls, all connection settings and schemas", "why_tests_cant": "Quantifies over every conforming peer, every encoding and fragmentation of its answers and every history.", "anchors": ["laurelin/ldap/ldapobject.py: LDAPObject.refresh, modify, add_attrs, replace_attrs, delete_attrs, _local_modify", "laurelin/ldap/base.py: LDAP.get, LDAP.search, LDAP.modify, SearchResultHandle", "laurelin/ldap/net.py: LDAPSocket.send_message, recv_one, recv_messages"]}
{"id": "C89", "title": "No call reports a success that was not announced", "statement": "Whatever octets arrive and in whatever pieces: if the n-th call on a connection (bind, compare, add, delete, modDN, modify, an extended operation) returns, then among the octets that have arrived is an encoding of a message with ID n that answers that call, i.e. the response that RFC 4511 defines for it, and says what the call returned. After any calls on an object: a modify that returns has sent nothing, or a modify response with its ID and the code for success is among the octets the other side has sent; a refresh that returns has seen an entry and the end of the search with its ID, and every attribute of the object is as before or has the values that this entry gives.", "quantifier": "all octets and fragmentations, all peers (hostile or broken ones too), all sequences of calls, all response controls, all connection settings", "why_tests_cant": "Quantifies over everything any peer might send and over all histories.", "anchors": ["laurelin/ldap/net.py: LDAPSocket.recv_one, recv_messages", "laurelin/ldap/base.py: LDAP._success_result, compare, send_extended_request, ExtendedResponseHandle, SearchResultHandle, LDAP.get", "laurelin/ldap/ldapobject.py: LDAPObject.modify, refresh"]}
{"id": "C90", "title": "A history of calls is a history of the directory", "statement": "On a connection to a server that answers each request as RFC 4511 says, in any encoding and any pieces, any sequence of add, delete, mod_dn, rename, move, modify, compare, search, get and exists calls, with any arguments, options, validators and controls, is a history of the directory: an update that returns has been made with exactly the arguments given (and nothing else), an update that raises has not been made, compare returns the truth, search returns all entries found with all their values, get the only entry, exists whether there is one; and reading changes nothing.", "quantifier": "all meanings of the operations (any relation of contents before and after), all servers and contents, all sequences of calls with all arguments and settings, all encodings and fragmentations of the answers", "why_tests_cant": "Quantifies over all histories, all servers, all encodings and fragmentations.", "anchors": ["laurelin/ldap/base.py: LDAP.add, delete, mod_dn, rename, move, modify, compare, search, get, exists, SearchResultHandle.__iter__", "laurelin/ldap/net.py: LDAPSocket.send_message, recv_one, recv_messages"]}
{"id": "C91", "title": "add_attrs, delete_attrs and replace_attrs change the entry as they say", "statement": "add_attrs(dn, d), delete_attrs(dn, d) and replace_attrs(dn, d) of a connection to a server that answers each request as RFC 4511 says, in any encoding and any pieces: if the call returns, the entry named has for each attribute named the values it had and those given (each once, by the attribute's equality rule), or the values it had without those given (all, if none are given), or exactly those given; all other attributes and all other entries are as they were. If the call raises, nothing has changed. With no such entry, the calls that read it first raise. This holds with strict_modify on or off, with or without a `current` object that is up to date for the attributes named, for any validators and controls.", "quantifier": "all servers and contents, all entries, attribute dictionaries and values, all settings and validators, all encodings and fragmentations of the answers", "why_tests_cant": "Quantifies over all servers, entries, arguments, encodings and fragmentations.", "anchors": ["laurelin/ldap/base.py: LDAP.add_attrs, LDAP.delete_attrs, LDAP.replace_attrs, LDAP.modify, LDAP.get", "laurelin/ldap/modify.py: Modlist, AddModlist, DeleteModlist"]}
{"id": "C92", "title": "add_or_mod_add_if_exists, add_or_mod_replace_if_exists and add_if_not_exists reach the state they promise", "statement": "On a connection to a server that answers each request as RFC 4511 says, in any encoding and any pieces, whether the entry is there or not: if add_or_mod_add_if_exists(dn, d) returns, the entry has at least the values given (those it had, then the given ones that were not there), or has been created with them; if add_or_mod_replace_if_exists(dn, d) returns (no empty lists), it has exactly the values given for the attributes named; if add_if_not_exists(dn, d) returns, an entry that was there is unchanged, one that was not has been created. Other attributes and other entries are unchanged, and the object returned has a form of the DN and shows the entry as it is now. If the call raises, nothing has changed.", "quantifier": "all servers and contents, all entries, attribute dictionaries and values, all settings and validators, all encodings and fragmentations of the answers, all refusals", "why_tests_cant": "Quantifies over all servers and states of the directory, all arguments, encodings and fragmentations.", "anchors": ["laurelin/ldap/base.py: LDAP.add_or_mod_add_if_exists, LDAP.add_or_mod_replace_if_exists, LDAP.add_if_not_exists, LDAP.get, LDAP.add", "laurelin/ldap/ldapobject.py: LDAPObject.add_attrs, LDAPObject.replace_attrs"]}
{"id": "C93", "title": "What can be done is done: no call fails against a server that is willing", "statement": "On a connection to a server that refuses an update only if the update is not possible, and a search only if its answer cannot be sent: add, delete, mod_dn, rename, move, modify, compare, search, get and exists return whenever the request can be written as a message (values, lengths and numbers in range), the update is possible, or the search has an answer whose messages can be written (one entry for get), in any encoding and any pieces the server chooses. add_attrs and delete_attrs return although the entry has some of the values to be added already, or lacks some of those to be deleted, and replace_attrs returns, whatever the entry holds (strict mode off, or with a current object that shows the entry). add_if_not_exists returns whether the entry is there or not.", "quantifier": "all willing servers and contents, all calls and arguments, all states of the connection between calls, all encodings and fragmentations of the answers", "why_tests_cant": "Quantifies over all servers and states of the directory, all arguments, encodings and fragmentations; says that the library itself never adds a reason to fail.", "anchors": ["laurelin/ldap/base.py: LDAP.add, LDAP.delete, LDAP.mod_dn, LDAP.move, LDAP.modify, LDAP.compare, LDAP.search, LDAP.get, LDAP.exists, LDAP.add_attrs, LDAP.delete_attrs, LDAP.replace_attrs, LDAP.add_if_not_exists", "laurelin/ldap/net.py: LDAPSocket.send_message, LDAPSocket.recv_messages", "laurelin/ldap/modify.py: AddModlist, DeleteModlist, Modlist"]}
{"id": "C94", "title": "Applying an LDIF file does to the directory what its records describe, in order", "statement": "process_ldif on the text of a file of change records, folded in any way, on a connection to any server that does what RFC 4511 says: if it returns, the directory has undergone exactly the changes that the records describe, one after the other, each request carrying the values of the record (base64 decoded, lines of one attribute grouped), and the list returned has one element for each record, for an add an object with the DN and the values of the record. If it raises, then the records before the one that failed have been applied, and nothing of it or of those after it. A critical control that the server or the library does not know stops it before the record is sent. Line ends CR LF and LF do the same. On a willing server a file whose changes are possible one after the other is applied to the end. Whatever answers, one message is written for each record that asks for something, in order with successive message IDs: the request that the record describes with the controls that its lines give, those that the library does not know left out; if it raises, the messages written are those of records at the start of the file.", "quantifier": "all files of well-formed records, all foldings and both line ends, all servers, contents and states of the connection, all encodings and fragmentations of the answers", "why_tests_cant": "Quantifies over all files, foldings, servers, contents, encodings and points of failure.", "anchors": ["laurelin/ldap/base.py: LDAP.process_ldif, LDAP.add, LDAP.delete, LDAP.modify, LDAP.mod_dn, LDAP._process_ctrl_kwds", "laurelin/ldap/net.py: LDAPSocket.send_message, LDAPSocket.recv_messages", "laurelin/ldap/controls.py: get_control, process_kwds", "laurelin/ldap/modify.py: Modlist"]}
{"id": "C95", "title": "A transaction on a connection sends nothing but reads until commit, then everything in one request, and does to the entry what its calls ask for", "statement": "For an object on a connection, down to the octets: whatever the other side sends, no call on a transaction or checkpoint (add_attrs, replace_attrs, delete_attrs, modify, refresh, commit of a checkpoint, leaving the context) writes anything but requests to read the object's entry, at most one per call, and the object stays as it was, until a transaction begun on the object is committed. Commit writes at most one message, a modify request for the object's DN with all the staged changes in the order of the calls; if it raises the changes are still staged, if it returns none is; other transactions are not affected. On a conforming server: if commit returns, the entry has become exactly what the calls ask for one after the other (values added where not yet there, replaced, deleted where there, other attributes untouched), and the transaction shows it; if it raises, none or all of it has been done; and the original object shows the attributes named exactly, or (if commit raises) is unchanged, as is the entry.", "quantifier": "all histories of calls on any number of transactions and checkpoints, all peers; for the effect all conforming servers, contents, values, encodings and fragmentations", "why_tests_cant": "Quantifies over all histories of calls, servers, contents and encodings.", "anchors": ["laurelin/ldap/ldapobject.py: ModTransactionObject, LDAPObject.mod_transaction, LDAPObject.add_attrs, LDAPObject.replace_attrs, LDAPObject.delete_attrs, LDAPObject.refresh_missing, LDAPObject.modify", "laurelin/ldap/base.py: LDAP.modify", "laurelin/ldap/net.py: LDAPSocket.send_message"]}
{"id": "C96", "title": "Opening a connection sends one request, for the root DSE, and takes base DN, mechanisms, controls and features from what the server answers", "statement": "Down to the octets: constructing an LDAP connection writes nothing but one search request for the entry with the empty DN, all user and operational attributes, with the configured options (or nothing at all and raises). On a conforming server it changes nothing; if it returns, the root DSE shows exactly the values the server has sent for every attribute whatever the casing, the base DN is the one given, else the server's defaultNamingContext, else its only naming context, and the default SASL mechanism is the one given, else EXTERNAL on a local socket. A server that serves gets a connection opened exactly if there is such a base DN, and LDAPError is raised otherwise. Afterwards a search that needs a critical control or a feature which the root DSE does not list raises before anything is written, and the mechanisms seen after a SASL bind being others than before raises, when fatal, whatever their order.", "quantifier": "all peers for what is written; all conforming servers, contents, encodings and fragmentations, all constructor arguments for what is learned", "why_tests_cant": "Quantifies over all servers, contents and encodings.", "anchors": ["laurelin/ldap/base.py: LDAP.__init__, LDAP.refresh_root_dse, LDAP.get_sasl_mechs, LDAP.recheck_sasl_mechs, LDAP.get, LDAP.search", "laurelin/ldap/net.py: LDAPSocket.send_message, LDAPSocket.recv_messages"]}
{"id": "C97", "title": "The life of a connection: a bind that returned is what the server accepted, the identity lasts, and after unbind nothing is written", "statement": "Down to the octets, on a connection with its socket for itself: simple_bind that returns means the server has accepted exactly this name and password, and the connection is bound; if it raises the connection is as bound as before and the server has refused or has seen nothing. sasl_bind is an exchange of messages with one mechanism (the one asked for, else the default, and only one the server has listed) in which each message answers the challenge just received; the connection is bound if and only if the server accepted the last one. On a bound or closed connection a bind raises and writes nothing. Every other call writes at most one message, the request it is. who_am_i returns the identity the server has; after a simple_bind that returned, and any calls, it is the identity that bind led to. After unbind nothing is ever written again, whatever calls are made.", "quantifier": "all servers that answer binds (any meaning), all encodings and fragmentations, all mechanisms, all histories of calls; all peers for what is written", "why_tests_cant": "Quantifies over all servers, mechanisms, exchanges of any length and histories of any length.", "anchors": ["laurelin/ldap/base.py: LDAP.simple_bind, LDAP.sasl_bind, LDAP.get_sasl_mechs, LDAP.recheck_sasl_mechs, LDAP.who_am_i, LDAP.send_extended_request, LDAP.unbind", "laurelin/ldap/net.py: LDAPSocket.send_message, LDAPSocket.recv_one, LDAPSocket.sasl_init, LDAPSocket.sasl_process_auth_challenge"]}
{"id": "C98", "title": "Attributes behave as an ordered dictionary under the methods inherited from dict, and objects are equal exactly if they show the same", "statement": "After any history of method calls on a CaseIgnoreDict, AttrsDict or LDAPObject, the inherited ones included (pop with or without default, popitem, items), each call gives what an ordered dictionary whose keys are compared without regard to casing gives. Two LDAPObjects compare equal exactly if they have the same DN and give the same values for every attribute; == is an equivalence and != its opposite.", "quantifier": "all histories of method calls, all keys and casings, all pairs (triples) of objects made by such histories", "why_tests_cant": "Histories, casings and pairs of objects are unbounded; failing cases need two casings of one name.", "anchors": ["laurelin/ldap/utils.py: CaseIgnoreDict", "laurelin/ldap/attrsdict.py: AttrsDict", "laurelin/ldap/ldapobject.py: LDAPObject.__eq__, LDAPObject.__ne__"]}
{"id": "C99", "title": "Calls made while the results of a search are iterated do not disturb it, nor it them", "statement": "In `for item in conn.search(...)`, the body of the loop may make any other calls on the same connection, decide them by what earlier ones returned, and leave the loop early. The loop is run with the items that list(conn.search(...)) would have returned when it began, in order, and raises what that would have raised; every call made in the loop or after it has the effect and the result it would have without the loop.", "quantifier": "all directories and servers, encodings and pieces in which answers arrive, programs of calls and loops, bodies (any calls, any decisions, any point of leaving)", "why_tests_cant": "Programs, bodies, results and the points at which the stream of octets is cut are unbounded; the failing interleaving needs a message that arrives in two pieces around a call.", "anchors": ["laurelin/ldap/base.py: SearchResultHandle.__iter__, LDAP.search", "laurelin/ldap/net.py: LDAPSocket.recv_messages, LDAPSocket.recv_one"]}
{"id": "C100", "title": "An object stays the object of its entry, over its whole life and down to the octets", "statement": "Take an LDAPObject of an existing entry and call its methods in any order (modify, add_attrs, replace_attrs, delete_attrs, refresh, compare, delete, mod_dn/rename, move, get_child, add_child, delete_child, search, find), going on with the object or with one that a call returned. After every call the object's DN is the name of an entry of the directory and each attribute it shows has that entry's values, or it has been deleted, shows no attributes and every later method raises without sending anything; a call that returns has had its meaning in the directory (that entry changed, renamed, removed; that child found, made, removed; these entries found) and one that raises changed no entry and not the object's DN.", "quantifier": "all directories and servers that answer as RFC 4511 says, encodings, pieces in which answers arrive, initial entries, sequences of methods with any arguments, choices of the object to go on with, and result codes", "why_tests_cant": "Sequences of calls, directories, values and the ways a server may encode, cut and decide its answers are unbounded; a wrong DN or stale RDN value shows only in a later call.", "anchors": ["laurelin/ldap/ldapobject.py: LDAPObject.delete, mod_dn, move, get_child, add_child, delete_child, search, find, compare, refresh, modify, add_attrs, replace_attrs, delete_attrs, rdn, _delete_attr_value", "laurelin/ldap/base.py: LDAP.delete, LDAP.mod_dn, LDAP.add, LDAP.get, LDAP.search", "laurelin/ldap/utils.py: get_one_result"]}
{"id": "C101", "title": "Netgroups, down to the octets", "statement": "Against any server that serves a directory: add_users/add_hosts, replace_users/replace_hosts and delete_users/delete_hosts either raise and have changed nothing, or the group's entry has exactly the triples and member groups that the call makes of what it had and of what the members of the list stand for (added; the list instead of what was there; removed), and nothing else in the directory has changed; a list with a member that stands for nothing is refused and nothing is sent. get_users and get_hosts change nothing; if they return, the names are those in the triples of the group found (the only one of this name), in order, and, recursively, those of the groups reached along its member groups: all of them and no others. With no object tagged as the base nothing is sent.", "quantifier": "all directories and servers that answer as RFC 4511 says, encodings and pieces of the answers, base objects (either search scope), group names, member lists and domains, graphs of member groups (cyclic ones included), recursion limits and result codes", "why_tests_cant": "Directories, graphs of groups, lists and the ways a server may encode and cut its answers are unbounded, and the recursion makes one request for every path in the graph.", "anchors": ["laurelin/extensions/netgroups.py: LaurelinLDAPExtension.get, get_users, get_hosts, get_obj_users, get_obj_hosts, add_users, add_hosts, replace_users, replace_hosts, delete_users, delete_hosts, _member_user_list_to_attrs, _member_host_list_to_attrs, _extract_triple_field", "laurelin/ldap/ldapobject.py: LDAPObject.find", "laurelin/ldap/base.py: LDAP.add_attrs, LDAP.replace_attrs, LDAP.delete_attrs, LDAP.search"]}
{"id": "C102", "title": "Searching for netgroups", "statement": "netgroups.search(text) finds netgroups only: the filter that is sent is the conjunction of (objectClass=nisNetgroup) and of the filters the given text consists of, whatever the text is, and a text that is not a sequence of filters is refused. Against any server that serves a directory and finds only entries of which the filter is true, nothing changes, and every object the caller gets is an entry with the object class of netgroups that lies under the base as the base object's scope says, and shows that entry. With no object tagged as the base nothing is sent.", "quantifier": "all texts, filter syntaxes that may be the default of the connection, directories and servers that answer as RFC 4511 says, encodings and pieces of the answers, base objects and requested attributes", "why_tests_cant": "The text is arbitrary: whether some text closes the conjunction it is pasted into is a question about every text and the whole grammar.", "anchors": ["laurelin/extensions/netgroups.py: LaurelinLDAPExtension.search, _netgroup_filter", "laurelin/ldap/filter.py: parse_standard_filter, parse_unified_filter, parse_simple_filter", "laurelin/ldap/ldapobject.py: LDAPObject.search"]}
{"id": "C103", "title": "Changing a netgroup through its object", "statement": "Against any server that serves a directory, for an object that shows its entry: obj.netgroups.add_users/add_hosts, replace_users/replace_hosts and delete_users/delete_hosts either raise and no entry has changed, or the object's entry has the object class of netgroups and has exactly the triples and member groups that the call makes of what it had and of what the members stand for, and no other entry has changed; either way the object still shows its entry. An object known not to be a netgroup is refused and nothing is sent; has_object_class tells whether the entry has a matching value. obj.netgroups.get_users and get_hosts return the names in the triples and those of the groups reached.", "quantifier": "all directories and servers that answer as RFC 4511 says, encodings and pieces of the answers, objects (whatever of their entry they show), member lists and domains, settings of strict_modify and validators, result codes", "why_tests_cant": "Which attributes an object shows depends on its whole history; directories, lists and the ways a server may encode and cut its answers are unbounded.", "anchors": ["laurelin/extensions/netgroups.py: LaurelinLDAPObjectExtension", "laurelin/ldap/ldapobject.py: LDAPObject.has_object_class, refresh_missing, add_attrs, replace_attrs, delete_attrs"]}
{"id": "C104", "title": "Structured descriptions over a connection", "statement": "Against any server that serves a directory, for an object that shows its entry: the first use of obj.descattrs changes nothing in the directory and, if it does not raise, shows what the entry's description says. After any sequence of descattrs.add/replace/delete, however each of them ended, a further one raises and no entry has changed, or the description of the entry says exactly what all of them have asked for, the unstructured descriptions are the ones the entry has, nothing else in it and no other entry has changed; the object still shows its entry. A deleted object is refused.", "quantifier": "all directories and servers that answer as RFC 4511 says, encodings and pieces of the answers, description values, sequences of modifications and their outcomes, settings of strict_modify and validators", "why_tests_cant": "Sequences of modifications and the ways each may end are unbounded, and so are description lists and the answers of servers.", "anchors": ["laurelin/extensions/descattrs.py: LaurelinLDAPObjectExtension", "laurelin/ldap/ldapobject.py: LDAPObject.refresh_missing, replace_attrs", "laurelin/ldap/extensible/base.py: _create_extension_instance"]}
{"id": "C105", "title": "Attribute dictionaries hold attribute values only", "statement": "Whatever Python values are passed to d[name] = values, setdefault, update, del and clear of an AttrsDict or LDAPObject, in any order: a call raises TypeError exactly when a name is not a str or a value is not a list of str or bytes (an AttrsDict also takes DELETE_ALL), and then nothing has changed; otherwise it does what a dictionary ignoring case does. So every item is a list of str or bytes. An object makes its own lists: later changes of the caller's lists do not show, a change of the list of one attribute shows under that attribute only, and setdefault returns the list that is stored.", "quantifier": "all histories of calls, arguments of any type, and changes of list objects by the program in between", "why_tests_cant": "Histories and arguments are unbounded, and aliasing shows only in combinations of them.", "anchors": ["laurelin/ldap/attrsdict.py: AttrsDict.__setitem__, setdefault, update, validate, validate_attr, validate_values", "laurelin/ldap/ldapobject.py: LDAPObject.__setitem__", "laurelin/ldap/attrvaluelist.py: AttrValueList.__init__", "laurelin/ldap/utils.py: CaseIgnoreDict"]}
{"id": "C106", "title": "StartTLS down to the octets", "statement": "With any server that answers StartTLS requests with an extended response: TLS counts as started after start_tls exactly if it was started before, or the server has accepted and the handshake has succeeded. If start_tls returns, root_dse, the supported extensions and the SASL mechanisms are those of the one root DSE found after the handshake, none older; if it raises they are as before. In every case the connection can be used for further calls, and at most two messages are written: the StartTLS request with the next message ID and no controls, and after a successful handshake the request for the root DSE. If TLS is on already, or the server does not list the extension, it raises and writes nothing. It returns whenever the server accepts, the handshake succeeds and the root DSE can be read.", "quantifier": "all servers (with any meaning of StartTLS and any encodings of their answers), handshakes, states of the connection and options", "why_tests_cant": "Servers, their encodings and the ways the handshake ends are unbounded; tests would need a TLS server and could show single runs only.", "anchors": ["laurelin/ldap/base.py: LDAP.start_tls, send_extended_request, refresh_root_dse, ExtendedResponseHandle._handle_msg, recv_response", "laurelin/ldap/net.py: LDAPSocket.start_tls, send_message, recv_messages"]}
{"id": "C107", "title": "The schema validator on a connection", "statement": "On a connection that has the schema validator with the shipped schema, whatever objects it validated before: an add of attributes that follow the schema, and a modify each of whose changes with values is a permitted one, does exactly what it does on a connection without the validator - same octets, same answer, same state. Any other add or modify raises, and nothing is written and nothing changes. No other call is touched. So after any history of calls the other side has got exactly the messages of the calls that are let through. An object's validate() returns exactly if its attributes, those that only the server sets included, follow the schema; its validate_modify() exactly if modify would not be refused.", "quantifier": "all servers, encodings, states of the connection, histories of calls, orders in which the shipped schema was loaded, foldings of case that agree with ASCII, attributes and changes with text values", "why_tests_cant": "Objects, changes, histories and servers are unbounded, and what the validator remembers of classes read before could influence any later verdict.", "anchors": ["laurelin/ldap/schema.py: SchemaValidator", "laurelin/ldap/validation.py: Validator.validate_modify", "laurelin/ldap/base.py: LDAP.add, modify, _run_validation, validate_object, validate_modify", "laurelin/ldap/ldapobject.py: LDAPObject.validate, validate_modify"]}
{"id": "C108", "title": "Asking an object class about attributes", "statement": "After the attribute types and object classes of an orderly schema were loaded, and after any history of such questions and of validations of objects: get_object_class(c).required_attr(a) is true exactly if the description of c, or of a class above it, requires a; allowed_attr(a) exactly if one of them requires or permits it or c was made as an ExtensibleObjectClass. A name that no class has requires and allows nothing; an OID that no class has, and the empty name, raise. Validation of objects gives the same verdicts as if nothing had been asked. In particular this holds of the schema that is shipped, loaded in any order.", "quantifier": "all schemas in order (no shared names, no circular superclasses), all classes and attribute names, all histories of questions and validations", "why_tests_cant": "Answers are remembered in objects shared by all users of a class, in lists that are extended in place; only an invariant over all histories shows that no earlier question changes a later answer.", "anchors": ["laurelin/ldap/objectclass.py: ObjectClass.required_attr, allowed_attr, must, may, ExtensibleObjectClass.allowed_attr, get_object_class", "laurelin/ldap/schema.py: SchemaValidator.validate_object", "laurelin/extensions/base_schema.py: EXTENSIBLE_OBJECT"]}
{"id": "C109", "title": "Which attributes a netgroup lookup asks for", "statement": "With the schema that is shipped, loaded in any order, and whatever was asked, validated and looked up before: netgroups.get(cn) and netgroups.search(filter) without attrs ask for exactly the attributes of netgroups (those that nisNetgroup and the classes above it require or permit), no more and no fewer at the hundredth lookup than at the first; with attrs they ask for exactly those.", "quantifier": "all orders of loading the shipped schema, all histories of questions, validations and lookups, all lists of attributes", "why_tests_cant": "The list is put together from lists that object classes remember and share; that no lookup adds to them has to hold after every history.", "anchors": ["laurelin/extensions/netgroups.py: _netgroup_attrs, _netgroup_attrs_arg, LaurelinLDAPExtension.get, search", "laurelin/ldap/objectclass.py: ObjectClass.must, may"]}
