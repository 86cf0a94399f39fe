p("C189","From the bytes of a repository to its VRPs",
 "Whatever bytes the manifests and ROAs of a trust anchor consist of: every VRP that it yields is stated by a ROA that is the content of a signed object, below an unbroken chain of accepted certificates; each certificate and the ROA are listed, with their hashes, in a valid manifest that is the content of a signed object of the certificate above; the certificates of these signed objects are accepted, and their keys have signed the types and the digests of the contents; and the VRP's addresses are held by each certificate up to the trust anchor's.", "all repositories, all contents of files below 1 GiB, all certificates, all states and random numbers", "All trees of files of any content.",
 ["src/object/certificate.c:certificate_traverse","src/object/manifest.c:handle_manifest","src/object/roa.c:roa_traverse","src/object/signed_object.c:signed_object_decode","src/object/signed_object.c:signed_object_validate","src/certificate_refs.c:refs_validate_ee"], "C165, instantiated with files (Repo.pki), and C182, C187 and C188's inversions for each of the files on the way.")
p("C190","What issuers write is published",
 "In a repository whose files (below 1 GiB), clock and library verdicts do not change during the validation, with the manifest incidences at their strict setting, and once the validation of the trust anchor has ended: if a chain, not longer than the configured maximum depth, of accepted certificates leads from the trust anchor to a CA, the manifest of each of them was written as RFC 9286 and RFC 6488 prescribe (in any order of the signed attributes, with the hashes of the listed files, which are there, exactly one CRL, and is valid now), and the CA's manifest lists a ROA written as RFC 9582 prescribes whose certificate holds its prefixes, then each of the ROA's prefixes, with its AS and maximum length, is handed to the router.", "all repositories, all chains of any length, all manifests and ROAs an issuer can write, all states and random numbers", "All trees of files of any content, any depth, any order of traversal.",
 ["src/object/certificate.c:certificate_traverse","src/object/manifest.c:handle_manifest","src/object/roa.c:roa_traverse","src/object/signed_object.c:signed_object_decode","src/object/signed_object.c:signed_object_validate"], "C166's completeness, instantiated with files (Repo.pki), and C187 and C188's equivalences for each of the files on the way.")
p("C191","What is used is what the manifest lists",
 "Whatever happens to the local files during a validation (another process, or the download of another publication point): every VRP comes from a ROA whose very octets have the hash that the manifest of its CA lists.", "all repositories, all sequences of changes to the files, all trust anchors", "All schedules of changes.",
 ["src/object/manifest.c:build_rpp","src/crypto/hash.c:hash_validate_file","src/object/signed_object.c:signed_object_decode","src/object/roa.c:roa_traverse"], "C189, with the manifest of the last CA exposed; the counterexample is run by the kernel.")
p("C192","From the bytes of the repositories to the bytes that routers receive",
 "After any number of validation cycles, with any TALs, SLURM files and repositories: a router that sends a reset query (or a serial query, after having been synchronized earlier) and decodes the bytes it receives ends with exactly a table in which each VRP is asserted by SLURM, or is stated by the bytes of a ROA below an unbroken chain of accepted certificates and manifests and is not filtered; and in which there is each VRP that an issuer wrote, as the RFCs prescribe, in the last complete cycle, if the files did not change meanwhile and SLURM does not filter it.", "all histories of cycles, all contents of the files, all configurations, all serials, all routers of versions 0 and 1", "All histories, all trees of files of any content.",
 ["src/rtr/db/vrps.c:vrps_update","src/object/tal.c:perform_standalone_validation","src/object/certificate.c:certificate_traverse","src/object/roa.c:roa_traverse","src/rtr/pdu_handler.c:handle_reset_query_pdu","src/rtr/pdu_handler.c:handle_serial_query_pdu"], "The composition of C168 (the cycles, SLURM, RTR) with C189 and C190 (the bytes), the trust anchors' functions of C168 being those of Repo.pki.")
