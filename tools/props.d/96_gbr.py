p("C129","A Ghostbusters record is accepted exactly if its vCard has the accepted shape, whatever the bytes",
 "The vCard of a Ghostbusters record is accepted if and only if, once unfolded, its lines are BEGIN:VCARD, VERSION:4.0, any number of FN:, ORG:, ADR;, TEL;, EMAIL: and EMAIL; properties with at least one FN: and one of the others, and END:VCARD, with nothing after it; letters' case doesn't matter. The parser always ends, and never reads or writes outside of its buffers.", "all byte strings", "All lengths, folds (also at buffer boundaries), embedded NULs and truncations.",
 ["src/object/vcard.c:handle_ghostbusters_vcard","src/object/vcard.c:__handle_ghostbusters_vcard","src/object/vcard.c:line_next","src/object/vcard.c:line_validate","src/object/vcard.c:line_starts_with"], "The growing line buffer has explicit bounds and uninitialised cells; the specification is an inductive unfolding relation.")
p("C130","Every record with the profile of RFC 6493 is accepted, and nothing else",
 "A Ghostbusters record whose vCard follows the profile (properties may have parameters) is accepted, and a record that's accepted follows it.", "all byte strings", "All combinations of properties and parameters.",
 ["src/object/vcard.c:__handle_ghostbusters_vcard"], "Soundness is proved; completeness is refuted (TEL: without parameters is rejected), and proved for the shape that's recognised.")
