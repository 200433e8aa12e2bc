{
 "C03": "Read tiles the layer and masks are placed correctly in every reachable state. Violated by the code (proved): a range that starts before an existing one and reaches its end is accepted; a leading or middle gap cannot be read; a mask of the wrong length is accepted; reading blocks later registrations.",
 "C04": "Candidate membership, error atomicity, single fixing proved for all histories. Violated by the code (proved): assignment after fixing succeeds.",
 "C05": "Proved for all histories of sequential channels. Violated (proved): rejected fix of a mask-valued channel changes the mask; ratio mode with no active channel.",
 "C06": "Proved for integer ratios and tracked values, all nestings. Violated (proved): float or mutable divide ratio, snapshots of mutable ratios.",
 "C07": "Proved when the divisor divides width and minimum and for exact ratio conversion. Violated (proved): duplicates, candidates above the width, re-rounding, IEEE rounding of k/n.",
 "C08": "Fixing keeps exactly the chosen operations for all three kinds of searchable op. Violated (proved): an unknown name is accepted and removes everything; a rejected fix of a route has already removed operations.",
 "C09": "Exact characterisation of the fixed choice. Violated (proved): the second-best weight can be fixed, and with a single candidate nothing is fixed.",
 "C10": "Round trip proved when every module has one source mutable; illegal values rejected. Violated (proved): two sources under one name, illegal op names accepted, re-export after fixing.",
 "C11": "Lookup with and without prefix proved. Violated (proved): prefix matching is textual.",
 "C12": "Pool operations proved for all histories. Violated (proved): two entries sharing one dict see each other's resources.",
 "C14": "Proved for every search starting from a passing pool. Violated (proved): initial candidates loaded from a file are not checked.",
 "C16": "Continuation proved for the epochs it runs. Violated (proved): the saved epoch is subtracted twice, so a resumed search stops early; other ranks do not resume.",
 "C53": "Sampling and mixing proved for all weights."
}