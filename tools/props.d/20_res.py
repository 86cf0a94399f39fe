p("C21","IP prefixes decode only from canonical encodings",
 "An IPv4 (IPv6) prefix is accepted exactly when its BIT STRING has at most 32 (128) bits, fewer than 8 unused bits, and no bit beyond the prefix length is set; the result is the address padded with zeros and the length.",
 "all BIT STRINGs", "All byte strings and unused-bit counts.",
 ["src/types/address.c:prefix4_decode","src/types/address.c:prefix6_decode"], "Byte-level model; address as a number; decision-logic theorem.")
p("C22","IP ranges decode only if ordered and not a prefix",
 "An address range is accepted exactly when min <= max and the range cannot be written as a prefix; min is padded with zeros and max with ones.",
 "all BIT STRING pairs", "All pairs.",
 ["src/types/address.c:range4_decode","src/types/address.c:range6_decode","src/types/address.c:check_encoding4"],
 "Number-level model of the encoding check; specification: no (addr,len) denotes the same set.")
p("C23","Resource sets stay sorted, disjoint and non-adjacent",
 "A resource set accepted from a certificate lists ranges in increasing order, with a gap between neighbours; anything else (out of order, overlapping, adjacent, inverted) is rejected.",
 "all sequences of ranges", "Unbounded lists.",
 ["src/sorted_array.c:sarray_add","src/resource/asn.c:asn_cmp","src/resource/ip4.c:r4_cmp","src/resource/ip6.c:r6_cmp"],
 "Generic comparison model; invariant by induction over additions.")
p("C24","Containment lookup is exact",
 "On a resource set built through the API, the containment query answers yes exactly when some stored range covers the requested range (equivalently, every requested number is in the set), and it terminates.",
 "all resource sets, all ranges", "Binary search over all sizes; boundary elements.",
 ["src/sorted_array.c:sarray_contains","src/resource/asn.c:rasn_contains","src/resource/ip4.c:res4_contains_range"],
 "Binary search with explicit left/right indexes and the C's unsigned/early exits; proof with the C23 invariant.")
p("C25","Certificates never gain resources their issuer lacks",
 "For every chain of certificates accepted from the trust anchor down, under either policy, the AS, IPv4 and IPv6 resources of each certificate are a subset of its issuer's, hence of the trust anchor's.",
 "all chains of any depth, all resource extensions, both policies, inherit or explicit", "Arbitrary depth and content.",
 ["src/resource.c:resources_add_ip","src/resource.c:resources_add_asn","src/resource.c:add_aors4"],
 "Resources as three optional range sets; per-certificate lemma and induction over the chain.")
p("C26","RFC 8360 trims overclaims, RFC 6484 rejects them",
 "An element not covered by the issuer makes an RFC 6484 certificate invalid, and is dropped (keeping all other elements) under RFC 8360.",
 "all element lists and issuer sets", "Arbitrary lists.",
 ["src/resource.c:add_prefix4","src/resource.c:add_range4","src/resource.c:add_asn"],
 "Fold over elements; exact output characterization. The corner case of an issuer without any resources of the family is refuted.")
p("C27","AS ranges are within 0..2^32-1 and not inverted",
 "An AS number or range is accepted only if it fits 32 bits and min <= max.", "all ASN.1 integers", "All integers of any size.",
 ["src/resource.c:add_asn","src/resource.c:ASId2ulong"], "Decision logic over unbounded integers.")
p("C28","Every VRP is well-formed and covered by the ROA's certificate",
 "Every VRP handed to the RTR database from a ROA has prefix length <= max length <= 32 (128), a canonical prefix, and a prefix contained in the resources of the ROA's EE certificate.",
 "all ROAs and certificates", "All ROA contents.",
 ["src/object/roa.c:____handle_roa_v4","src/object/roa.c:____handle_roa_v6","src/object/roa.c:__handle_roa"],
 "ROA payload as lists of families and addresses; effect list of emitted VRPs; invariant over the loops.")
p("C29","A rejected ROA contributes no VRPs",
 "If a ROA is rejected, none of its prefixes becomes a VRP.", "all ROAs", "The failing element can be at any position.",
 ["src/object/roa.c:__handle_roa","src/object/roa.c:roa_traverse"],
 "Same model; refuted by a ROA whose second address is not covered; proved when the error is in the first address / before any emission.")
p("C69","No certificate content aborts the validator",
 "Whatever the resource extensions of a certificate contain, reading them ends with success or with an error for this certificate; it does not end the process.",
 "all certificates of all types, all issuers", "All extension contents in all states.",
 ["src/resource.c:inherit_aors","src/resource.c:inherit_asiors","src/object/certificate.c:__certificate_get_resources"],
 "Outcome `crit` for pr_crit in the resource model; never reached below a trust anchor; a trust anchor that inherits is the counterexample.")
p("C70","Objects that must inherit have no resources of their own",
 "The end entity certificate of a Ghostbusters record is given no AS number or address other than by inheriting all of its issuer's.",
 "all certificates, all issuers", "All extension contents.",
 ["src/resource.c:add_aors","src/resource.c:add_asiors","src/object/ghostbusters.c:ghostbusters_traverse"],
 "Invariant over the extension loop: every set is NULL or the issuer's.")
p("C71","A VRP says what the ROA says",
 "An accepted ROA yields exactly one VRP per address, in order, each with the AS number, the prefix and the max length that the ROA encodes.",
 "all accepted ROAs", "All contents and lengths.",
 ["src/object/roa.c:__handle_roa"],
 "Same model as C28, with the DER value of INTEGERs as specification. Negative INTEGERs are read as unsigned: refuted for them.")
p("C72","Only profile-compliant resource extensions are accepted",
 "The resources of a certificate are accepted only if: there is an IP or AS extension of the certificate's policy, none twice, none of the other policy; each is critical; IP: one block, or IPv4 then IPv6; AS: numbers present, no routing domain identifiers, no inheritance in BGPsec certificates; lists are not empty.",
 "all certificates", "All extension lists.",
 ["src/object/certificate.c:__certificate_get_resources","src/object/certificate.c:handle_ip_extension","src/resource.c:resources_add_asn"],
 "Induction over the extension loop, against an independent profile predicate.")
