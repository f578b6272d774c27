{
 "claims": [
  {
   "property": "C01",
   "status": "partial",
   "theorems": [
    "Silofs.File.C01_request_partial",
    "Silofs.File.C01_history_partial",
    "Silofs.File.C01_empty_write_violated",
    "Silofs.File.C01_failed_write_violated"
   ],
   "note": "Read, write, truncate, fallocate and delete/re-create histories over any number of files refine byte arrays, for every failure pattern and allocator choice. Not covered: a write without data extends the file (counterexample proved), and a space-map access failing right after the same access succeeded. False, with a witness: a write beyond the end that fails before its first byte still extends the file to where it was to begin (the specification of failed writes allows this, POSIX does not)."
  },
  {
   "property": "C02",
   "status": "partial",
   "theorems": [
    "Silofs.File.C02_no_stale_partial",
    "Silofs.File.C02_late_violated",
    "Silofs.File.C02_shared_unwritten_violated"
   ],
   "note": "Every byte read is zero or was written to that position of that file. Two counterexamples proved: a double failure late in a write leaks old block content, and a range copy of a zeroed (unwritten) block followed by a write brings old bytes back."
  },
  {
   "property": "C03",
   "status": "partial",
   "theorems": [
    "Silofs.File.C03_request_partial",
    "Silofs.File.C03_copy_partial",
    "Silofs.File.C03_copy_violated"
   ],
   "note": "After any history of requests and range copies within the condition Plain, a request on one file acts as on a byte array and changes no other file. Missing: a partial copy into a block that is already shared changes the other file as well (counterexample proved)."
  },
  {
   "property": "C04",
   "status": "partial",
   "theorems": [
    "Silofs.File.C04_copy_partial",
    "Silofs.File.C04_eof_violated",
    "Silofs.File.C04_overrun_violated",
    "Silofs.File.C04_unwritten_violated",
    "Silofs.File.C04_fail_violated"
   ],
   "note": "Exact copy proved for ranges inside the source, with no unwritten source block and no shared destination block, holes and partial leaves included, for all failure patterns. The four remaining cases are false of the code (counterexamples proved)."
  },
  {
   "property": "C05",
   "status": "partial",
   "theorems": [
    "Silofs.File.C05_data",
    "Silofs.File.C05_hole_partial",
    "Silofs.File.C05_hole_violated"
   ],
   "note": "SEEK_DATA proved for every reachable shape; SEEK_HOLE is sound but skips holes that span a missing tree node (witness)."
  },
  {
   "property": "C06",
   "status": "proved",
   "theorems": [
    "Silofs.File.C06_one_leaf",
    "Silofs.File.C06_same_leaf",
    "Silofs.File.C06_slot",
    "Silofs.File.C06_height",
    "Silofs.File.C06_path",
    "Silofs.File.C06_grow",
    "Silofs.File.C06_leaf_slot",
    "Silofs.File.C06_path_leaf"
   ],
   "note": "Leaf partition, tree height, slots per level, path equality iff same leaf, growth of the tree, for all offsets up to the maximal file size."
  },
  {
   "property": "C07",
   "status": "partial",
   "theorems": [
    "Silofs.File.C07_read",
    "Silofs.File.C07_write",
    "Silofs.File.C07_falloc",
    "Silofs.File.C07_trunc",
    "Silofs.File.C07_seek",
    "Silofs.File.C07_copy",
    "Silofs.File.C07_copy_end_violated",
    "Silofs.File.C07_no_overflow",
    "Silofs.File.C07_sum_fits",
    "Silofs.File.C07_falloc_modes",
    "Silofs.File.C07_rejected",
    "Silofs.File.C07_handle",
    "Silofs.File.C07_handle_errors",
    "Silofs.File.C07_handle_flags",
    "Silofs.File.C07_read_end",
    "Silofs.File.C07_write_end"
   ],
   "note": "Acceptance conditions proved as iff for each call; which file and handle a request is let through on is an iff too; a rejected read, write, truncate or fallocate changes nothing. The end of the destination range of copy_file_range is not checked by the code (violated, witness)."
  },
  {
   "property": "C08",
   "status": "partial",
   "theorems": [
    "Silofs.Dir.C08_map_partial",
    "Silofs.Dir.C08_present",
    "Silofs.Dir.C08_count",
    "Silofs.Dir.C08_no_death_shallow",
    "Silofs.Dir.C08_remove_error_violated",
    "Silofs.Dir.C08_lookup_dies_violated"
   ],
   "note": "Refinement of the directory tree to a finite map over all operation sequences with failure oracles. Partial because the code terminates the process when a lookup misses at depth 4 (C08_lookup_dies_violated) and reports an error after having removed the last entry (C08_remove_error_violated)."
  },
  {
   "property": "C09",
   "status": "partial",
   "theorems": [
    "Silofs.Dir.C09_quiet_partial",
    "Silofs.Dir.C09_deep_violated"
   ],
   "note": "Complete listing for every directory without nodes of depth 4, any buffer sizes; entries at depth 4 are never listed (C09_deep_violated)."
  },
  {
   "property": "C10",
   "status": "partial",
   "theorems": [
    "Silofs.Dir.C10_stable_partial"
   ],
   "note": "Interleaving of arbitrary adds/removes with readdir requests; names stored in nodes of depth 4 excluded (never listed)."
  },
  {
   "property": "C11",
   "status": "proved",
   "theorems": [
    "Silofs.Dir.C11_bytes",
    "Silofs.Dir.C11_search",
    "Silofs.Dir.C11_remove_frame",
    "Silofs.Dir.C11_insert_frame"
   ],
   "note": "Byte-level model of the 7680-byte node data; every out-of-bounds access, overlapping memcpy or failed expectation is a failing outcome and proved unreachable."
  },
  {
   "property": "C12",
   "status": "proved",
   "theorems": [
    "Silofs.Dir.C12_child_of_parent",
    "Silofs.Dir.C12_parent_of_child",
    "Silofs.Dir.C12_child_inj",
    "Silofs.Dir.C12_depth_child",
    "Silofs.Dir.C12_depth_interval",
    "Silofs.Dir.C12_valid_depth",
    "Silofs.Dir.C12_doff_roundtrip",
    "Silofs.Dir.C12_doff_order",
    "Silofs.Dir.C12_path_bits"
   ],
   "note": ""
  },
  {
   "property": "C13",
   "status": "partial",
   "theorems": [
    "Silofs.Ns.C13_links_partial",
    "Silofs.Ns.C13_link_into_removed_violated"
   ],
   "note": "Link counts, single parent, no dangling names over all histories of the 13 name-space operations by any users with arbitrary internal failures. Partial: assumes what the kernel checks before calling (Vfs: no link into a removed directory, no rename of a directory onto itself) and that no rename of a directory fails half-way; without them it is false (witnesses)."
  },
  {
   "property": "C14",
   "status": "proved",
   "theorems": [
    "Silofs.Ns.C14_no_early_release",
    "Silofs.Ns.C14_open_stays",
    "Silofs.Ns.C14_named_stays",
    "Silofs.Ns.C14_nothing_left",
    "Silofs.Ns.C14_relink_panic_violated"
   ],
   "note": "Per step for every state satisfying the invariant of reachable states (Good, preserved by Run.good). Special files stay pinned till forget. The panic witness needs a link the kernel refuses."
  },
  {
   "property": "C15",
   "status": "partial",
   "theorems": [
    "Silofs.Ns.C15_rename_partial",
    "Silofs.Ns.C15_flags",
    "Silofs.Ns.C15_tree_step",
    "Silofs.Ns.C15_reachable",
    "Silofs.Ns.C15_same_inode_violated",
    "Silofs.Ns.C15_dir_onto_itself_violated",
    "Silofs.Ns.C15_type_mismatch_violated",
    "Silofs.Ns.C15_loop_violated"
   ],
   "note": "Effect of every successful rename on all names when source and target differ; flags; the tree stays a tree if the kernel's loop check is made. Violated for rename onto the same inode, type mismatch, and move below itself (library level)."
  },
  {
   "property": "C16",
   "status": "partial",
   "theorems": [
    "Silofs.Ns.C16_refused",
    "Silofs.Ns.C16_no_effect_partial",
    "Silofs.Ns.C16_rename_loses_name_violated",
    "Silofs.Ns.C16_replace_removes_target_violated",
    "Silofs.Ns.C16_unlink_violated",
    "Silofs.Ns.C16_create_leak_violated"
   ],
   "note": "Every error other than ENOSPC/EIO leaves the state identical; ENOSPC/EIO too if nothing fails after the first change. Violated otherwise (witnesses)."
  },
  {
   "property": "C17",
   "status": "proved",
   "theorems": [
    "Silofs.Ns.C17_access",
    "Silofs.Ns.C17_exclusive",
    "Silofs.Ns.C17_open_mask",
    "Silofs.Ns.C17_change_needs_write",
    "Silofs.Ns.C17_open_granted"
   ],
   "note": "Access decision of do_access equals the POSIX rule for every caller, inode and mask; any change of a name needs write permission on its directory."
  },
  {
   "property": "C18",
   "status": "partial",
   "theorems": [
    "Silofs.Ns.C18_decision",
    "Silofs.Ns.C18_sticky",
    "Silofs.Ns.C18_replace_refused_violated"
   ],
   "note": "No operation removes or replaces a name in a sticky directory without ownership or privilege. The converse (permitted callers are not refused) is violated for replacing a directory."
  },
  {
   "property": "C19",
   "status": "proved",
   "theorems": [
    "Silofs.Space.C19_claim_disjoint",
    "Silofs.Space.C19_live_disjoint",
    "Silofs.Space.C19_defined_partial"
   ],
   "note": "All histories of claim/addref/reclaim/remount/reload/snapshot-renew with arbitrary failure oracles. C19_defined_partial: assertions hold when cache-node memory is available (its failure is C23_oom_violated)."
  },
  {
   "property": "C20",
   "status": "proved",
   "theorems": [
    "Silofs.Space.C20_refcount",
    "Silofs.Space.C20_allocated_iff",
    "Silofs.Space.C20_release",
    "Silofs.Space.C20_freed_allocatable"
   ],
   "note": "Reference count = number of users over all histories; freed exactly at last release."
  },
  {
   "property": "C21",
   "status": "partial",
   "theorems": [
    "Silofs.Space.C21_objects",
    "Silofs.Space.C21_bytes",
    "Silofs.Space.C21_leaf_bytes",
    "Silofs.Space.C21_snapshot",
    "Silofs.Space.C21_gauge",
    "Silofs.Space.C22_total_violated"
   ],
   "note": "Counters exact. The part \"reported free space is never larger than capacity\" is false: statvfs free wraps when maps exceed capacity (C22_total_violated)."
  },
  {
   "property": "C22",
   "status": "partial",
   "theorems": [
    "Silofs.Space.C22_claim",
    "Silofs.Space.C22_capacity_partial",
    "Silofs.Space.C22_maps_unchecked",
    "Silofs.Space.C22_total_violated"
   ],
   "note": "Object space is bounded by capacity in all histories; total including space maps is not (violated with witness)."
  },
  {
   "property": "C23",
   "status": "partial",
   "theorems": [
    "Silofs.FreeCache.C23_pop",
    "Silofs.FreeCache.C23_add",
    "Silofs.FreeCache.C23_conserve",
    "Silofs.FreeCache.C23_disjoint",
    "Silofs.FreeCache.C23_defined_partial",
    "Silofs.FreeCache.C23_oom_violated"
   ],
   "note": "All histories; when node memory runs out inside insert, C frees a linked node (undefined behaviour, witness)."
  },
  {
   "property": "C24",
   "status": "proved",
   "theorems": [
    "Silofs.Snap.C24_step",
    "Silofs.Snap.C24_snapshot",
    "Silofs.Snap.C24_closed",
    "Silofs.Snap.C24_fork",
    "Silofs.Snap.C24_snapshot_of_fork"
   ],
   "note": "Over all histories of requests (also failing ones), write-back, eviction, further snapshots and mounts: a volume that is not mounted, or closed by a fork, keeps the content of every object; a fork makes the snapshot equal to the forked volume at that moment. Model of one address space; space-map cache transparent; volume ids unique."
  },
  {
   "property": "C25",
   "status": "partial",
   "theorems": [
    "Silofs.Snap.C25_step_partial",
    "Silofs.Snap.C25_history_partial",
    "Silofs.Snap.C25_write_violated",
    "Silofs.Snap.C25_prepare_violated",
    "Silofs.Snap.C25_flush_violated"
   ],
   "note": "Refinement to separate maps per volume over all histories, for all objects but 64K data blocks and for those when the block is cached (write) or already belongs to the live volume. False otherwise, with witnesses: the first partial write after a snapshot to an uncached 64K block loses the rest of it, fallocate over an existing 64K block loses all of it, and a failed rebind leaves dirty objects that cannot be written back."
  },
  {
   "property": "C26",
   "status": "partial",
   "theorems": [
    "Silofs.Meta.C26_sealed_verifies",
    "Silofs.Meta.C26_accepted_identity",
    "Silofs.Meta.C26_payload_tamper_partial",
    "Silofs.Meta.C26_header_tamper",
    "Silofs.Meta.C26_flags_cleared",
    "Silofs.Meta.C26_flags_violated",
    "Silofs.Meta.C26_full_violated"
   ],
   "note": "Payload and header identity tampering is detected up to checksum collisions; the flags field is not covered, so clearing the checksum flag while setting the type flag disables the check (violated)."
  },
  {
   "property": "C27",
   "status": "partial",
   "theorems": [
    "Silofs.Addr.C27_vaddr64_roundtrip",
    "Silofs.Addr.C27_vaddr64_none",
    "Silofs.Addr.C27_vaddr56_roundtrip",
    "Silofs.Addr.C27_vaddr56_null",
    "Silofs.Addr.C27_vaddr56_injective",
    "Silofs.Addr.C27_vrange_roundtrip",
    "Silofs.Addr.C27_lsid_roundtrip",
    "Silofs.Addr.C27_laddr_roundtrip",
    "Silofs.Addr.C27_uaddr_roundtrip",
    "Silofs.Addr.C27_paddr_roundtrip",
    "Silofs.Addr.C27_caddr_roundtrip",
    "Silofs.Addr.C27_laddr_setup_roundtrip",
    "Silofs.Addr.C27_laddr_setup_injective",
    "Silofs.Addr.C27_uuid_roundtrip",
    "Silofs.Addr.C27_laddr_ascii_roundtrip",
    "Silofs.Addr.C27_laddr_ascii_valid",
    "Silofs.Caddr.C27_caddr_name_roundtrip",
    "Silofs.Caddr.C27_caddr_name_valid",
    "Silofs.Caddr.C27_caddr_name_injective",
    "Silofs.Addr.C27_laddr_null_violated"
   ],
   "note": "All valid addresses round-trip in every binary and text form. The null case is violated: an address with a live segment and a null position decodes to a non-null position."
  },
  {
   "property": "C28",
   "status": "partial",
   "theorems": [
    "Silofs.Base64.C28_roundtrip",
    "Silofs.Base64.C28_encode_iff",
    "Silofs.Base64.C28_encode_bounds",
    "Silofs.Base64.C28_decode_bounds",
    "Silofs.Base64.C28_reject",
    "Silofs.Base64.C28_decode_defined_partial",
    "Silofs.Base64.C28_decode_ub_violated",
    "Silofs.Base64.C28_encode_rfc"
   ],
   "note": "Round trip and buffer bounds are proved in full. Definedness holds for ASCII text only: a text byte >= 0x80 makes the decoder index its table with a negative number (C28_decode_ub_violated)."
  },
  {
   "property": "C29",
   "status": "proved",
   "theorems": [
    "Silofs.EncDec.C29_roundtrip",
    "Silofs.EncDec.C29_iv_unique",
    "Silofs.EncDec.C29_effective_iv_unique",
    "Silofs.EncDec.C29_seed_changes_iv",
    "Silofs.EncDec.C29_iv_unique_any_len_violated"
   ],
   "note": "Cipher is a parameter with the inverse law. IV uniqueness is for blocks with equal segment size and equal length (blocks of one kind)."
  },
  {
   "property": "C30",
   "status": "partial",
   "theorems": [
    "Silofs.Vrange.C30_contains",
    "Silofs.Vrange.C30_partition",
    "Silofs.Vrange.C30_slot",
    "Silofs.Vrange.C30_next",
    "Silofs.Vrange.C30_leaf_slot",
    "Silofs.Vrange.C30_slot_overflow_violated"
   ],
   "note": "Full for all levels; at the top level only for offsets below 2^55 of the node, above that the slot computation overflows a signed 64-bit product (C30_slot_overflow_violated)."
  },
  {
   "property": "C31",
   "status": "partial",
   "theorems": [
    "Silofs.Xattr.C31_set",
    "Silofs.Xattr.C31_remove",
    "Silofs.Xattr.C31_get",
    "Silofs.Xattr.C31_list",
    "Silofs.Xattr.C31_step_partial",
    "Silofs.Xattr.C31_history_partial",
    "Silofs.Xattr.C31_replace_violated",
    "Silofs.Xattr.Node.Rep.insert",
    "Silofs.Xattr.Node.Rep.remove",
    "Silofs.Xattr.Node.Rep.search"
   ],
   "note": "Byte-level node of entries and the eight node slots of an inode with cache and disk. set/remove/get/list are exactly the map operations for every state, name, value, flag and every failure of staging; histories with write-back and eviction refine the map as long as no replace moves an entry to another node. C31_replace_violated: such a replace does not mark the old node dirty, so after eviction the old value is back and the name is listed twice (xattr.c:938-954). The success of removing absent POSIX ACL names is not modelled."
  },
  {
   "property": "C32",
   "status": "partial",
   "theorems": [
    "Silofs.Symlink.C32_readlink",
    "Silofs.Symlink.C32_history_partial",
    "Silofs.Symlink.C32_symlink_violated",
    "Silofs.Symlink.holds_symlink",
    "Silofs.Symlink.holds_unlink"
   ],
   "note": "Targets stored as head and parts. After any history of symlink and unlink in which the nodes for the parts could be allocated, readlink returns the target cut to the buffer (or fails if a node can not be read), and exactly the nodes of existing links are in use. C32_symlink_violated: if a node can not be allocated the symlink reports success and the target is empty (symlink.c:489-503 drops the error)."
  },
  {
   "property": "C33",
   "status": "partial",
   "theorems": [
    "Silofs.Attr.C33_chmod_allowed",
    "Silofs.Attr.C33_chmod",
    "Silofs.Attr.C33_chmod_sgid_partial",
    "Silofs.Attr.C33_chmod_sgid_violated",
    "Silofs.Attr.C33_chown_allowed",
    "Silofs.Attr.C33_chown",
    "Silofs.Attr.C33_chown_none",
    "Silofs.Attr.C33_chgrp_violated",
    "Silofs.Attr.C33_io_partial",
    "Silofs.Attr.C33_copy_violated",
    "Silofs.Attr.C33_falloc_violated",
    "Silofs.Attr.C33_write_error_violated",
    "Silofs.Attr.C33_type_history",
    "Silofs.Attr.C33_owner_history"
   ],
   "note": "Who may chmod/chown is proved exact, as are the resulting bits; by induction over all histories the type never changes and no unprivileged non-owner gains bits. False of the code: the owner may give a file to any group; chmod keeps set-group-id without group-execute; copy_file_range, fallocate and a write that fails half-way keep set-id bits. Witnesses proved."
  },
  {
   "property": "C34",
   "status": "partial",
   "theorems": [
    "Silofs.Ids.C34_map",
    "Silofs.Ids.C34_roundtrip_partial",
    "Silofs.Ids.C34_separate_partial",
    "Silofs.Ids.C34_duplicate_violated",
    "Silofs.Ids.C34_overlap_violated",
    "Silofs.Ids.C34_shown_violated",
    "Silofs.Ids.C34_shown_partial"
   ],
   "note": "The result of mapping is proved exact for every table. The round trip holds for tables without duplicates or overlaps with passed-through ids; the configuration accepts others, for which it is false (witnesses). Unmapped owners are shown under the raw id (witness)."
  },
  {
   "property": "C35",
   "status": "proved",
   "theorems": [
    "Silofs.Ns.C35_limits",
    "Silofs.Ns.C35_legal"
   ],
   "note": "Over all histories (Run) from a fresh file-system."
  },
  {
   "property": "C36",
   "status": "proved",
   "theorems": [
    "Silofs.Ns.C36_new_attr"
   ],
   "note": "Bit by bit, for every creating operation."
  },
  {
   "property": "C37",
   "status": "proved",
   "theorems": [
    "Silofs.Avl.C37_insert",
    "Silofs.Avl.C37_insert_any",
    "Silofs.Avl.C37_insert_unique",
    "Silofs.Avl.C37_remove",
    "Silofs.Avl.C37_find",
    "Silofs.Avl.C37_lower_bound",
    "Silofs.Avl.C37_upper_bound",
    "Silofs.Avl.C37_equal_range",
    "Silofs.Avl.C37_neighbours",
    "Silofs.Avl.C37_walk",
    "Silofs.Avl.C37_clear",
    "Silofs.Avl.C37_height",
    "Silofs.Avl.C37_history"
   ],
   "note": "Refinement of a sorted list, by a zipper model of the tree; balance invariant shows that no rotation meets a missing node."
  },
  {
   "property": "C38",
   "status": "partial",
   "theorems": [
    "Silofs.File.C38_blocks_partial",
    "Silofs.File.C38_no_blocks_partial",
    "Silofs.Dir.C38_dir_blocks",
    "Silofs.Dir.C38_dir_emptied",
    "Silofs.Dir.C38_dir_emptied_ok",
    "Silofs.Symlink.C38_symlink_blocks"
   ],
   "note": "Proved for every state reached by requests, failing or not, and by range copies within the conditions of C04: st_blocks counts exactly the blocks a regular file maps, and a file that reports none reads as zeros. Proved for directories after any history with any failures: st_blocks counts exactly the nodes in storage, the size is above the offsets of all entries, an emptied directory has given back every node, and it fails to only if a node cannot be read or given back. Proved for symbolic links, also when not all nodes could be taken. Missing: range copies outside those conditions; tree nodes of files and nodes of extended attributes, which the code does not count."
  },
  {
   "property": "C39",
   "status": "partial",
   "theorems": [
    "Silofs.Flush.C39_cache_invisible_partial",
    "Silofs.Flush.C39_syncfs_partial",
    "Silofs.Flush.C39_sync_partial",
    "Silofs.Flush.C39_sync_succeeds",
    "Silofs.Flush.C39_fsync_partial",
    "Silofs.Flush.C39_fsync_gate",
    "Silofs.Flush.C39_order",
    "Silofs.Flush.C39_copies",
    "Silofs.Flush.C39_fsync_reply_violated",
    "Silofs.Flush.C39_fsync_error_violated",
    "Silofs.Flush.C39_fsync_inode_violated",
    "Silofs.Flush.C39_flush_failure_violated",
    "Silofs.Flush.C39_write_failure_violated",
    "Silofs.Flush.C39_async_violated",
    "Silofs.Flush.C39_osync_violated"
   ],
   "note": "Proved: flushing, eviction and reloading never change contents; after a history of whole operations a successful sync leaves exactly the produced contents on storage; fsync does so for a file with dirty blocks once its writes are done; data before metadata before space maps. False of the code, with witnesses: fsync answers before it writes and its errors reach nobody; fsync of a file with only a dirty inode does nothing; a flush that fails half way or a failed write loses data silently; a block being copied while its inode is flushed is never stored by later syncs; O_SYNC does not cover size and times."
  },
  {
   "property": "C40",
   "status": "partial",
   "theorems": [
    "Silofs.Attr.C40_utimens",
    "Silofs.Attr.C40_utimens_allowed",
    "Silofs.Attr.C40_utimens_rule_partial",
    "Silofs.Attr.C40_utimens_violated",
    "Silofs.Attr.C40_io",
    "Silofs.Attr.C40_marks",
    "Silofs.Attr.C40_history",
    "Silofs.Attr.C40_atime_history",
    "Silofs.Attr.C40_atime_durable",
    "Silofs.Attr.C40_setattr_times",
    "Silofs.Attr.C40_setattr_atomic_violated",
    "Silofs.Attr.C40_setattr_times_violated",
    "Silofs.Attr.C40_setattr_atomic_partial",
    "Silofs.Attr.C40_io_size"
   ],
   "note": "Times after each request and after any history with evictions. False of the code: explicit times may be set by any user with write access; a setattr of several kinds is not atomic, and ignores times sent together with a mode, owner or size. Witnesses proved; single-kind requests are atomic."
  },
  {
   "property": "C41",
   "status": "proved",
   "theorems": [
    "Silofs.Ids.C41_process",
    "Silofs.Ids.C41_root",
    "Silofs.Ids.C41_no_pid"
   ],
   "note": "The start of a request on a mounted file system: authorization and credentials."
  },
  {
   "property": "C42",
   "status": "partial",
   "theorems": [
    "Silofs.Compare.C42_laddr_equal",
    "Silofs.Compare.C42_uaddr_equal",
    "Silofs.Compare.C42_paddr_equal",
    "Silofs.Compare.C42_vaddr_equal",
    "Silofs.Compare.C42_blobid_equal",
    "Silofs.Compare.C42_key_equal",
    "Silofs.Compare.C42_laddr_order",
    "Silofs.Compare.C42_uaddr_order",
    "Silofs.Compare.C42_paddr_order",
    "Silofs.Compare.C42_vaddr_order_partial",
    "Silofs.Compare.C42_vaddr_order_violated",
    "Silofs.Compare.C42_dirty_order_violated",
    "Silofs.Compare.C42_order_unique"
   ],
   "note": "Equality is exact for all kinds of addresses and the order is proved for all but virtual addresses of different types, whose types are subtracted as unsigned values: each compares as less than the other (proved for all such pairs)."
  },
  {
   "property": "C43",
   "status": "partial",
   "theorems": [
    "Silofs.Dir.C43_dir_accepts",
    "Silofs.Dir.C43_dir_safe_partial",
    "Silofs.Dir.C43_dir_safe_violated",
    "Silofs.Dir.C43_dir_count_violated",
    "Silofs.Dir.C43_dir_inode",
    "Silofs.Xattr.C43_xattr_accepts",
    "Silofs.Xattr.C43_xattr_safe_partial",
    "Silofs.Xattr.C43_xattr_safe_violated",
    "Silofs.Xattr.C43_xattr_count_violated",
    "Silofs.File.C43_ftree_accepts",
    "Silofs.File.C43_ftree_safe",
    "Silofs.File.C43_ftree_dies_violated",
    "Silofs.Space.C43_leaf_accepts_partial",
    "Silofs.Space.C43_refs_violated",
    "Silofs.Ns.C43_inode_accepts_partial",
    "Silofs.Ns.C43_dir_links_violated",
    "Silofs.Ns.C43_mkdir_limit",
    "Silofs.Ns.C43_mode"
   ],
   "note": "Directory nodes, xattr nodes, file-tree nodes and directory inodes: whatever operations store is accepted when loaded. Inode heads: accepted for all but directories, and for directories as long as none is renamed. Violated: rename does not check the link count of the target directory, so a directory can get 32768 links and is then refused; a block shared 2^31-1 times makes its space map refused. Verification keeps file-tree lookups in range for all bytes; for directory and xattr nodes only under a condition that the code does not verify (violations proved)."
  },
  {
   "property": "C44",
   "status": "partial",
   "theorems": [
    "Silofs.Snap.C44_others",
    "Silofs.Snap.C44_complete",
    "Silofs.Snap.C44_again_partial",
    "Silofs.Snap.C44_stuck",
    "Silofs.Snap.C44_wf",
    "Silofs.Snap.C44_history",
    "Silofs.Snap.C44_order",
    "Silofs.Snap.C44_space_violated",
    "Silofs.Snap.C44_again_violated"
   ],
   "note": "Deleting a file-system leaves every other one as it is, also when it is stopped at any point (C44_others), and if it runs to its end removes everything the volume has stored (C44_complete); a deletion stopped while all its space maps are still stored can be run again and then gives the same result (C44_again_partial). Completeness needs that the space maps of the volume were filled in order (InOrder), which is kept by steps that add nodes in order (C44_order). Violated: a deletion stopped after a segment with space maps went can never be completed, since each attempt makes the lost segment anew, empty, and fails on it (C44_stuck for every such stop, C44_again_violated). Violated: after a snapshot the storage shared by the file-system and its snapshot belongs to a closed volume, whose deletion is refused forever; deleting both leaves all of it in the repository. Not modelled: segments created for a leaf with no block written; a stop between removal of the super-block and of the boot record. The segment of the physical store that mkfs makes is never removed (C64_never_removed_violated)."
  },
  {
   "property": "C45",
   "status": "partial",
   "theorems": [
    "Silofs.Pack.C45_roundtrip",
    "Silofs.Pack.C45_index_roundtrip",
    "Silofs.Pack.C45_index_integrity",
    "Silofs.Pack.C45_index_oob_violated",
    "Silofs.Pack.C45_tampered_violated",
    "Silofs.Pack.C45_order_violated",
    "Silofs.Pack.C45_large_violated",
    "Silofs.Pack.Case.C45_missing_violated",
    "Silofs.Pack.Case.C45_large_case",
    "Silofs.Pack.C45_rollback_violated",
    "Silofs.Pack.C45_lost_map"
   ],
   "note": "For a file-system stored completely (Tree) in a repository with sound pack files and no two ranges of one hash (Clean), the export succeeds, and importing it into any repository gives the boot record and, along every path from the super-block, what the source has; other file-systems there are not changed (C45_roundtrip; the destination is arbitrary, so this covers an import that was interrupted and is run again). A stored index either is refused, or gives the descriptors that were written, unless it is another string with the same hash (C45_index_integrity). Violated by the code: the number of descriptors in the index is not compared with its size (read beyond the buffer); the data of pack files are not compared with their addresses, so changed data are restored silently; the boot record is imported first, so that a failed import leaves a file-system without data; with one segment missing, export and import succeed without other blocks of the same node; more than 1048572 ranges fail after all of them have been written. Hypothesis: child slots of the space maps are filled in order, as for C44. A restored file-system cannot be mounted in a repository that lacks the segment of its physical store, which archives do not hold (C64_restored_violated). Restoring an archive where the original still exists takes the same boot record and so rolls back later changes of the original (C45_rollback_violated). An export that comes to a space map which cannot be read fails, whatever else is lost (C45_lost_map)."
  },
  {
   "property": "C46",
   "status": "partial",
   "theorems": [
    "Silofs.Mnt.C46_mount_authorized",
    "Silofs.Mnt.C46_mount_static",
    "Silofs.Mnt.C46_mount_granted",
    "Silofs.Mnt.C46_history",
    "Silofs.Mnt.C46_message_roundtrip",
    "Silofs.Mnt.C46_path_terminated",
    "Silofs.Mnt.C46_descriptor",
    "Silofs.Mnt.C46_umount_partial",
    "Silofs.Mnt.Case.C46_case",
    "Silofs.Mnt.Case.C46_nosuid_violated",
    "Silofs.Mnt.Case.C46_rootmode_violated",
    "Silofs.Mnt.Case.C46_race_violated",
    "Silofs.Mnt.Case.C46_second_rule_violated",
    "Silofs.Mnt.Case.C46_umount_dead_violated",
    "Silofs.Mnt.Case.C46_umount_norules_violated",
    "Silofs.Mnt.Case.C46_umount_link_violated",
    "Silofs.Mnt.Case.C46_umount_other_violated"
   ],
   "note": "Mounting: for all bytes sent by a peer, all rules and all changes of the file-system meanwhile, a mount is made only where a rule that lets the peer names the directory, the path was seen canonical, a directory of the peer's own on an allowed file-system, for the peer's own ids and with harmless flags (C46_mount_authorized, any history C46_history); an entitled user is granted it (C46_mount_granted); messages arrive as sent, paths are terminated, the descriptor goes exactly with a mount that was made. Unmounting is proved only for a mount point that answers and a non-empty set of rules (C46_umount_partial). Violated by the code: nosuid and nodev are not required; the declared root mode can be a block device; checks go by path and can be raced; a second rule for a directory has no effect; if the mount point answers ENOTCONN the rules are not looked at; without rules everybody can unmount; an unmount follows links and takes any root with inode 1; with a rule for all users, one unmounts the mount of another."
  },
  {
   "property": "C47",
   "status": "partial",
   "theorems": [
    "Silofs.Mnt.C47_rules",
    "Silofs.Mnt.C47_only_stated",
    "Silofs.Mnt.C47_garbage_violated",
    "Silofs.Mnt.C47_octal_violated",
    "Silofs.Mnt.C47_recursive_violated"
   ],
   "note": "Every file written by the grammar (any white space, comments, decimal user numbers, truth values) with at most 1024 rules is read as exactly the rules of its lines (C47_rules). For any text whatever that is accepted, the rules are those that its lines state, one each and in order; a rule is for all users exactly if its line names none (C47_only_stated). Violated by the code: one stray character after a user number is accepted ('uid=10O' is 10, 'uid=0x' is root); numbers with a leading zero are octal; the recursive mark has no effect on what the service grants. realpath(3) is a parameter, reading of the file itself is not modelled."
  },
  {
   "property": "C48",
   "status": "partial",
   "theorems": [
    "Silofs.Boot.C48_roundtrip",
    "Silofs.Boot.C48_accepted",
    "Silofs.Boot.C48_tamper",
    "Silofs.Boot.C48_other_password",
    "Silofs.Boot.C48_others",
    "Silofs.Boot.C48_crash",
    "Silofs.Boot.C48_unlink",
    "Silofs.Boot.C48_name",
    "Silofs.Boot.C48_tmp_name",
    "Silofs.Boot.C48_keystream_violated",
    "Silofs.Boot.C48_forged_violated",
    "Silofs.Boot.C48_resave_violated"
   ],
   "note": "A boot record that was saved opens, with the same password, to the same record (C48_roundtrip); whatever opens was found under the SHA-256 of its bytes and passed every check (C48_accepted); changed bytes are refused unless a named pair of different byte strings has the same SHA-256 (C48_tamper); what another password gives is stated exactly (C48_other_password); other records are not touched by saving, by a save cut off anywhere, or by removal (C48_others, C48_crash, C48_unlink); the accepted names are exactly the plain ones and temporary files are no such names (C48_name, C48_tmp_name). The ciphers and digests are parameters. Violated by the code: all records under one password share one key stream, so that one known key gives all others and records can be forged without the password; saving over a longer file leaves the record unusable while reporting success."
  },
  {
   "property": "C49",
   "status": "partial",
   "theorems": [
    "Silofs.Fork.C49_snapshot",
    "Silofs.Fork.C49_history",
    "Silofs.Fork.C49_cut_off",
    "Silofs.Fork.C49_killed_violated",
    "Silofs.Fork.C49_half_violated",
    "Silofs.Fork.C49_race_violated",
    "Silofs.Fork.C49_offline_violated"
   ],
   "note": "From the command to the names: after a successful snapshot the new name opens to the content of that moment, the old one goes on with it, all other names are as before (C49_snapshot); for all histories of changes, syncs and snapshots each snapshot name keeps opening to the content when it was taken (C49_history, refinement of a map of names to contents); for every failing step, every partial flush and every point where the command is killed, no other name changes, the own name still opens at least read-only to the content of that moment, and the new one is absent or right (C49_cut_off). Violated by the code: a command killed before it saves the original name leaves that name read-only for ever and later synced changes are lost to it; the same when the second super-block cannot be made, although an error was reported; two snapshots at a time; an offline snapshot of a mounted file-system. Content of a volume is abstract (C24, C25 are about it)."
  },
  {
   "property": "C50",
   "status": "partial",
   "theorems": [
    "Silofs.Locks.C50_mutex",
    "Silofs.Locks.C50_names_only_held",
    "Silofs.Locks.C50_released",
    "Silofs.Locks.C50_granted",
    "Silofs.Locks.C50_file_names",
    "Silofs.Locks.C50_killed_violated",
    "Silofs.Locks.Case.C50_restore_violated",
    "Silofs.Locks.Case.C50_restore_stuck_violated",
    "Silofs.Locks.Case.C50_mkfs_violated"
   ],
   "note": "For any number of commands, any interleaving of their system calls, any kills, failures, left-over files and clocks: at most one command that gives back the name it locked works under the lock of a name, its lock-file is there, nobody else changes the name or removes the lock (C50_mutex, invariant by induction over the run); names change only under their lock (C50_names_only_held); the lock is given back at the end (C50_released) and granted when free (C50_granted); lock and temporary files never clash (C50_file_names). Violated by the code: a restore locks the archive's name but unlocks the file-system's name, so that two mounts may hold one lock and the archive's stays locked for ever; a killed command leaves its lock for ever; mkfs looks whether the name is free before it has the lock, so that a second mkfs may take the name from a first that reported success. Snapshots take no lock at all (C49_offline_violated)."
  },
  {
   "property": "C51",
   "status": "partial",
   "theorems": [
    "Silofs.Fuse.C51_request_partial",
    "Silofs.Fuse.C51_unknown",
    "Silofs.Fuse.C51_others",
    "Silofs.Fuse.C51_answer",
    "Silofs.Fuse.C51_failure",
    "Silofs.Fuse.C51_missing",
    "Silofs.Fuse.C51_forget",
    "Silofs.Fuse.C51_before_init",
    "Silofs.Fuse.C51_second_init",
    "Silofs.Fuse.C51_wrong_length",
    "Silofs.Fuse.C51_release_violated",
    "Silofs.Fuse.C51_setxattr_violated"
   ],
   "note": "For every request of the kernel (all 40 kinds, any names, numbers, data, user), received by read or by splice, over any bytes an earlier request has left in the buffer: the file-system is called once, with exactly the operation, inode and arguments of the request and as its user and group (C51_request_partial); unknown requests get ENOSYS (C51_unknown); other users get EACCES where only the owner may use the mount (C51_others). The answer is accepted by the kernel, belongs to the request, and the kernel reads the call's value or errno from it (C51_answer, C51_failure, C51_missing, C51_forget). No call before an accepted INIT, whatever arrives (C51_before_init, over message sequences; C51_second_init, C51_wrong_length). Violated by the code: the flush flag of RELEASE and the drop-setgid flag of SETXATTR are taken from the wrong field (C51_release_violated: writes are not flushed when asked for; C51_setxattr_violated: creating an extended attribute with XATTR_CREATE drops the set-group-id bit), hence the hypothesis Agrees. Not modelled: directory stream packing, ioctl sub-commands, the fields of INIT's answer, statx's answer."
  },
  {
   "property": "C52",
   "status": "partial",
   "theorems": [
    "Silofs.Emit.C52_listxattr",
    "Silofs.Emit.C52_listxattr_whole",
    "Silofs.Emit.C52_reply",
    "Silofs.Emit.C52_attributes",
    "Silofs.Emit.C52_listing_partial",
    "Silofs.Emit.C52_stable_partial"
   ],
   "note": "At the level of the bytes the kernel gets. C52_listxattr: for any attributes, size 0 is answered by the number of bytes needed, any size that suffices by exactly the names, each once, and any other by ERANGE; all names need less than 32K, so asking for the size first always works. C52_listxattr_whole: also with unreadable nodes an answer that is no error is the whole list. C52_reply: what the kernel parses from a READDIR or READDIRPLUS reply, for any position and size, is exactly the entries of the listing; C52_attributes: with each entry those of its inode. C52_listing_partial, C52_stable_partial: whole listings, also while names change (C09 and C10 down to bytes). Missing: as in C09, names in nodes of depth 4; inodes that can not be read during READDIRPLUS (the request then fails as a whole)."
  },
  {
   "property": "C53",
   "status": "partial",
   "theorems": [
    "Silofs.Sysio.C53_write",
    "Silofs.Sysio.C53_write_failed",
    "Silofs.Sysio.C53_write_succeeds",
    "Silofs.Sysio.C53_read",
    "Silofs.Sysio.C53_read_succeeds",
    "Silofs.Sysio.C53_roundtrip",
    "Silofs.Sysio.C53_roundtrip_succeeds",
    "Silofs.Sysio.C53_writev_partial",
    "Silofs.Sysio.C53_writev_succeeds",
    "Silofs.Sysio.C53_writev_short",
    "Silofs.Sysio.C53_writev_beyond",
    "Silofs.Sysio.C53_writev_violated",
    "Silofs.Sysio.C53_writev_overrun"
   ],
   "note": "Single buffers are proved in full: for every sequence of short transfers, interruptions and errors, success means exactly the bytes at their place, failure means a beginning of them there and nothing else touched; reads alike. Batches (what a flush of several neighbouring objects uses) are false of the code: after a short transfer the loop diminishes the length of the element reached but not its base and passes the old count of elements, so it reports success with the beginning of an object written where its rest belongs (C53_writev_short, for all lengths; C53_writev_violated), or gives the kernel elements of the array that were never set (C53_writev_beyond); a batch of 128 ends outside the array (C53_writev_overrun; flushes make at most 32). C53_writev_partial: batches are exact when the kernel never transfers a part."
  },
  {
   "property": "C54",
   "status": "partial",
   "theorems": [
    "Silofs.Repo.C54_step",
    "Silofs.Repo.C54_run_partial",
    "Silofs.Repo.C54_fresh_partial",
    "Silofs.Repo.C54_read_after_write",
    "Silofs.Repo.C54_load_after_save",
    "Silofs.Repo.C54_pload_after_psave",
    "Silofs.Repo.C54_sync_partial",
    "Silofs.Repo.C54_save_durable",
    "Silofs.Repo.C54_pflush_partial",
    "Silofs.Repo.C54_sizes",
    "Silofs.Repo.C54_read_succeeds",
    "Silofs.Repo.C54_write_succeeds_partial",
    "Silofs.Repo.C54_paths_distinct",
    "Silofs.Repo.C54_readonly_partial",
    "Silofs.Repo.C54_sync_violated",
    "Silofs.Repo.C54_sync_pseg_violated",
    "Silofs.Repo.C54_sync_code_violated",
    "Silofs.Repo.C54_writable_violated",
    "Silofs.Repo.C54_cut_violated",
    "Silofs.Repo.C54_save_shorter_violated",
    "Silofs.Repo.C54_readonly_violated"
   ],
   "note": "For all executions of the repository's operations with any calls of the kernel failing, the cache of open files is unobservable: answers and contents are those of a map from names to contents (C54_run_partial, C54_fresh_partial, from C54_step), what was written is read (three theorems), segments keep sizes with which they can be opened again. Partial: hypotheses on batches (C53) and on regrowing a cut file (C54_cut_violated). False of the code: an error of storing is dropped when the file is evicted and a later sync reports success (C54_sync_violated); segments of the physical store are never stored at eviction (C54_sync_pseg_violated); sync's error code is lost (C54_sync_code_violated); after a read has brought a segment into the cache writes fail with EBADF until it is evicted (C54_writable_violated; C54_write_succeeds_partial otherwise); an object saved over a longer one keeps its tail (C54_save_shorter_violated); a repository opened for reading only refuses operations on segments (C54_readonly_partial) but saves and removes objects (C54_readonly_violated). Not modelled: creation and permissions of directories, durability of directory entries, failures of close and of memory allocation; st_blocks = 0 is taken to mean all zeros."
  },
  {
   "property": "C55",
   "status": "partial",
   "theorems": [
    "Silofs.Lcache.C55_cache_transparent",
    "Silofs.Lcache.C55_cache_from_start",
    "Silofs.Lcache.C55_one_copy",
    "Silofs.Lcache.C55_stage_right",
    "Silofs.Lcache.C55_stage_refused",
    "Silofs.Lcache.C55_in_use_stays",
    "Silofs.Lcache.C55_unsaved_kept",
    "Silofs.Lcache.C55_forgotten_stays",
    "Silofs.Lcache.C55_queues_exact",
    "Silofs.Lcache.C55_no_assertion_fails",
    "Silofs.Lcache.C55_count_exact",
    "Silofs.Lcache.C55_drop_leaves_used_partial",
    "Silofs.Lcache.C55_drop_leaves_used_violated",
    "Silofs.Lcache.C55_relax_frees",
    "Silofs.Lcache.C55_shortage_frees",
    "Silofs.Lcache.C55_address_in_force_partial",
    "Silofs.Lcache.C55_address_given",
    "Silofs.Lcache.C55_address_forgotten",
    "Silofs.Lcache.C55_address_in_force_violated"
   ],
   "note": "For all sequences of requests (load, reference, change, save, forget, relax under memory pressure, drop) the cache is transparent: every request is answered with the current content of the object, as by a plain map of current and saved contents (C55_cache_transparent, C55_cache_from_start); there is one copy of each object; objects in use stay and unsaved changes are kept; queues and counters are exact; no assertion fails. The map from ranges to unode addresses gives only addresses in force (C55_address_in_force_partial), provided memory was found for each entry. False of the code: a failed allocation of an entry is ignored and the address from before a snapshot is given from then on (C55_address_in_force_violated); dropping everything leaves an unused forgotten vnode when nothing is mapped (C55_drop_leaves_used_violated). Hypotheses (Legal): callers hold references they release, write to mapped objects, and do not free an inode with changed objects in its queue. Keys are compared as equal numbers (C42 for the comparison itself); a failing load is a forget."
  },
  {
   "property": "C56",
   "status": "partial",
   "theorems": [
    "Silofs.Opers.C56_readonly_refused",
    "Silofs.Opers.C56_readonly_code",
    "Silofs.Opers.C56_readonly_reads_partial",
    "Silofs.Opers.C56_readonly_sync_violated",
    "Silofs.Opers.C56_stranger_refused",
    "Silofs.Opers.C56_once",
    "Silofs.Opers.C56_locked",
    "Silofs.Opers.C56_pointers_partial",
    "Silofs.Opers.C56_link_pointer_partial",
    "Silofs.Opers.C56_link_pointer_violated",
    "Silofs.Opers.C56_link_evicts_violated",
    "Silofs.Opers.C56_success_done",
    "Silofs.Opers.C56_failure_undone_partial",
    "Silofs.Opers.C56_failure_undone_violated",
    "Silofs.Opers.C56_pending_removals_partial",
    "Silofs.Opers.C56_pending_removals_violated"
   ],
   "note": "Every request of lib/opers.c as a program of steps over an adversarial environment. Read-only mounts, admission, locking, once-only and success-means-done hold for all requests; pointer validity for all but link (use of an evicted directory under memory shortage, witness, tied to the cache model); error-means-undone fails when the reply's attributes or the flush of pending removals fail (witnesses); durability requests are refused on read-only mounts (witness). Opening a file-system read-only fails already when its physical store is opened (C64_readonly_violated); the theorems here are about requests to an open one."
  },
  {
   "property": "C57",
   "status": "partial",
   "theorems": [
    "Silofs.Qalloc.C57_disjoint",
    "Silofs.Qalloc.C57_aligned",
    "Silofs.Qalloc.C57_malloc_keeps",
    "Silofs.Qalloc.C57_free_ok",
    "Silofs.Qalloc.C57_malloc_no_panic",
    "Silofs.Qalloc.C57_null_only_if_full",
    "Silofs.Qalloc.C57_no_leak",
    "Silofs.Qalloc.C57_bytes_exact",
    "Silofs.Qalloc.C57_reuse",
    "Silofs.Qalloc.C57_bad_large_free",
    "Silofs.Qalloc.C57_double_free_large",
    "Silofs.Qalloc.C57_double_free_small_violated",
    "Silofs.Qalloc.C57_bad_address_violated",
    "Silofs.Qalloc.C57_bad_length_violated"
   ],
   "note": "The built-in allocator of lib/infra/qalloc.c, pool of pages and twelve slabs, memory contents included. Everything holds for clients which give back what they got with the length they asked for; misuse is noticed for objects of more than 64K (and double release from 32K), not for smaller ones (three witnesses)."
  },
  {
   "property": "C58",
   "status": "partial",
   "theorems": [
    "Silofs.Stage.C58_grow_partial",
    "Silofs.Stage.C58_grow_keeps",
    "Silofs.Stage.C58_grow_range",
    "Silofs.Stage.C58_stage_partial",
    "Silofs.Stage.C58_read_partial",
    "Silofs.Stage.C58_read_not_hole_partial",
    "Silofs.Stage.C58_half",
    "Silofs.Stage.C58_crash_blocks_growth_violated",
    "Silofs.Stage.C58_failed_clone_violated",
    "Silofs.Stage.C58_lost_data_violated",
    "Silofs.Stage.C58_unbound_reads_zeros_violated",
    "Silofs.Stage.C58_leaf_moves_blocks"
   ],
   "note": "Holds for all histories of growth, staging, copying, writing, eviction, forks and clean restarts, with any storage errors, except for leaves whose copy failed half-way (C58_half: only when the storage fails). False of the code after a crash at the wrong moment (a segment file left over blocks its 4G range for ever), after a failed copy of a leaf, for lost files of data (read as zeros) and for absent maps (taken for holes)."
  },
  {
   "property": "C59",
   "status": "partial",
   "theorems": [
    "Silofs.Sv.C59_split_chr",
    "Silofs.Sv.C59_split",
    "Silofs.Sv.C59_split_str",
    "Silofs.Sv.C59_strip",
    "Silofs.Sv.C59_compare",
    "Silofs.Sv.C59_ascii",
    "Silofs.Sv.C59_copy",
    "Silofs.Sv.C59_rsub_partial",
    "Silofs.Sv.C59_rsub_violated"
   ],
   "note": "Proved for every text in memory and every view inside it: the pointer-level functions never read outside the view and compute the cuts which the parsers of C34, C51 and C60 are modelled with. False for taking the last n bytes of a shorter text (C59_rsub_violated); no caller in the repository does so."
  },
  {
   "property": "C60",
   "status": "partial",
   "theorems": [
    "Silofs.Idsconf.C60_parse",
    "Silofs.Idsconf.C60_save_load_swaps",
    "Silofs.Idsconf.C60_save_load_partial",
    "Silofs.Idsconf.C60_save_load_violated",
    "Silofs.Idsconf.C60_sections_disagree_violated",
    "Silofs.Idsconf.C60_init",
    "Silofs.Idsconf.C60_init_then_use_partial",
    "Silofs.Idsconf.C60_large_id_violated",
    "Silofs.Idsconf.C60_room",
    "Silofs.Idsconf.C60_big_group_violated",
    "Silofs.Idsconf.C60_trailing_violated",
    "Silofs.Idsconf.C60_octal_violated",
    "Silofs.Idsconf.C60_assign_violated",
    "Silofs.Idsconf.C60_assign_undefined_violated"
   ],
   "note": "The file is read as its lines say (C60_parse, all files of well-formed lines). False of the code: what is written is read with every mapping reversed (exactly the mappings of ids to themselves survive), so files made by init are right but others are not; users and groups are read in opposite senses; users with ids above 1073741823 get a repository no command can open; groups with large entries are not found; a left-over character after a number is overlooked; copying mappings is broken."
  },
  {
   "property": "C61",
   "status": "partial",
   "theorems": [
    "Silofs.Pp.C61_write",
    "Silofs.Pp.C61_read",
    "Silofs.Pp.C61_round",
    "Silofs.Pp.C61_rounds",
    "Silofs.Pp.C61_start",
    "Silofs.Pp.C61_kinds",
    "Silofs.Pp.C61_write_answered",
    "Silofs.Pp.C61_read_answered_partial",
    "Silofs.Pp.C61_pieces",
    "Silofs.Pp.C61_pieces_tight",
    "Silofs.Pp.C61_max_write",
    "Silofs.Pp.C61_default_limits",
    "Silofs.Pp.C61_read_unanswered_violated",
    "Silofs.Pp.C61_read_ends_thread_violated",
    "Silofs.Pp.C61_stuck_violated",
    "Silofs.Pp.C61_stuck_reached_violated",
    "Silofs.Pp.C61_max_write_violated"
   ],
   "note": "Proved for every sequence of requests, every way the kernel's calls may fail at any point, and every layout of the pieces in memory: no request gets another's bytes, a write is reported as done only if its pieces hold its data, a read is answered with its data or an error. False of the code: the longest reads that the kernel may send get no answer and end the thread (pages are counted as bytes); a reader that gives up ends the thread at its next round; with a pipe of 2M the file-system refuses writes of the length the kernel was told."
  },
  {
   "property": "C62",
   "status": "partial",
   "theorems": [
    "Silofs.File.C62_step",
    "Silofs.File.C62_history_partial",
    "Silofs.File.C62_lands",
    "Silofs.File.C62_complete",
    "Silofs.File.C62_stale_read_violated",
    "Silofs.File.C62_lost_data_violated",
    "Silofs.File.C62_no_space_violated",
    "Silofs.File.C62_copy_violated"
   ],
   "note": "Proved for all interleavings of reads, writes and large writes of any number of threads and files, all orders in which data arrive (or do not), all failures and choices of the allocator: bytes outside the range of a request never change, sizes and answers are as expected, and once the data of a large write have arrived every read gives them; with nothing in between a large write does exactly what an ordinary one does. False of the code, with witnesses: before the data arrive a reader sees what the re-used blocks held before, e.g. a deleted file (C62_stale_read_violated); if they do not arrive, or there is no space for a later block, that stays so (C62_lost_data_violated, C62_no_space_violated); a range copied meanwhile to another file changes there after the copy was done (C62_copy_violated). Not covered: truncation and the like of a file while data for it are on their way (the kernel excludes it)."
  },
  {
   "property": "C63",
   "status": "partial",
   "theorems": [
    "Silofs.Whole.C63_step_partial",
    "Silofs.Whole.C63_history_partial",
    "Silofs.Whole.C63_bytes_stay_partial",
    "Silofs.Whole.C63_rename_keeps_bytes_partial",
    "Silofs.Whole.C63_dropped_unreachable",
    "Silofs.Whole.C63_freed"
   ],
   "note": "Proved for every sequence of requests on names, handles and contents (create, mknod, mkdir, symlink, link, unlink, rmdir, rename, open, close, forget, read, write, truncate, fallocate, copy) to a new file system, with any failures of the storage: it is a run of a specification that knows only names, handles and bytes. A regular file that is gone for good leaves nothing mapped (C63_freed). In particular contents are dropped only of files that nobody can get at, new files are empty, and what is done to names never changes bytes. Not covered: a rename that fails half-way with a directory in its hands (C16), copies from unwritten or to shared blocks and failing copies that extend a file (C04), aborts of the process, renames of a name to itself (C15_same_inode_violated: the name is removed), large writes in two phases (C62)."
  },
  {
   "property": "C64",
   "status": "partial",
   "theorems": [
    "Silofs.Bs.C64_mountable",
    "Silofs.Bs.C64_mkfs_private",
    "Silofs.Bs.C64_readonly_violated",
    "Silofs.Bs.C64_restored_violated",
    "Silofs.Bs.C64_never_removed_violated",
    "Silofs.Bs.C64_mount_sound",
    "Silofs.Bs.C64_damage_violated",
    "Silofs.Bs.C64_leaf",
    "Silofs.Bs.C64_node_violated",
    "Silofs.Bs.C64_node_partial"
   ],
   "note": "Proved: what mkfs made can be mounted for writing after any history of the repository with any failures (C64_mountable); mkfs never touches another file-system's segment (C64_mkfs_private); a mount accepts only a root of the right type inside the range of the boot record (C64_mount_sound); a leaf of the address tree answers with the last binding and takes 84 (C64_leaf); an inner node works when filled in ascending order (C64_node_partial). Violated by the code, with proofs: no file-system can be mounted read-only, because opening its segment asks for a writable repository; one restored from an archive into another repository cannot be mounted, since its physical segment is not archived; nothing removes that segment with the file-system; damage of the stored root is not noticed; an inner node loses children when keys do not come in ascending order."
  },
  {
   "property": "C65",
   "status": "partial",
   "theorems": [
    "Silofs.Rep.C65_version",
    "Silofs.Rep.C65_repo",
    "Silofs.Rep.C65_boot",
    "Silofs.Rep.C65_proc",
    "Silofs.Rep.C65_spstats",
    "Silofs.Rep.C65_spstats_objects",
    "Silofs.Rep.C65_show_statx",
    "Silofs.Rep.C65_statx_mask",
    "Silofs.Rep.C65_statx_values",
    "Silofs.Rep.C65_statx_untold",
    "Silofs.Rep.C65_blocks",
    "Silofs.Rep.C65_fuse_statx",
    "Silofs.Rep.C65_answer_partial",
    "Silofs.Rep.C65_answer_violated",
    "Silofs.Rep.C65_denied",
    "Silofs.Rep.C65_statfs_files",
    "Silofs.Rep.C65_statfs_files_full",
    "Silofs.Rep.C65_statfs_space_partial",
    "Silofs.Rep.C65_statfs_space_violated",
    "Silofs.Rep.C65_avail_violated",
    "Silofs.Rep.C65_namemax_violated",
    "Silofs.Rep.C65_namemax_partial",
    "Silofs.Rep.C65_msflags_exact",
    "Silofs.Rep.C65_msflags_partial",
    "Silofs.Rep.C65_msflags_violated",
    "Silofs.Rep.C65_tune",
    "Silofs.Rep.C65_tune_inherit",
    "Silofs.Rep.C65_tune_root_violated"
   ],
   "note": "Proved for all histories of requests of a serving thread: each `silofs show` query answers what the mounted file-system has (texts, boot address that parses back, numbers, counters of volume and base, attributes and flags). statx answers exactly what was asked, equal to stat, and so does the FUSE_STATX answer as the kernel reads it. statfs: files in use exact and never wrapping; free space exact while the use is within the capacity. Tuning changes only the file kind bit. False, with witnesses: the first 64 bytes of a query's answer are left from the thread's previous request (attributes of another user's file); name limit 511 is reported but names above 255 are refused; blocks reported available are refused to data in the last 1/32; free blocks wrap when space maps outgrow the capacity; two mount flags print as one word and further ones are lost; tuning the root directory clears its root flag."
  },
  {
   "property": "C66",
   "status": "partial",
   "theorems": [
    "Silofs.Mi.C66_safe",
    "Silofs.Mi.C66_safe_violated",
    "Silofs.Mi.C66_read_error",
    "Silofs.Mi.C66_list",
    "Silofs.Mi.C66_short_partial",
    "Silofs.Mi.C66_none_missing",
    "Silofs.Mi.C66_blank_violated",
    "Silofs.Mi.C66_others_violated",
    "Silofs.Mi.C66_long",
    "Silofs.Mi.C66_long_uuid",
    "Silofs.Mi.C66_long_lines",
    "Silofs.Mi.C66_rmfs_partial",
    "Silofs.Mi.C66_rmfs_list",
    "Silofs.Mi.C66_rmfs_only",
    "Silofs.Mi.C66_rmfs_violated"
   ],
   "note": "Proved for every list of mounts as the kernel writes it, however its reads are cut: the list has exactly the mounts whose line has the text \"fuse.silofs\", so no silofs is missing; with clean directories `lsmnt` prints exactly them; the long listing shows the repository, name, boot address and uuid of the file-system behind the directory (through C65); `rmfs` stops with EBUSY when the file to be removed is that of a mounted file-system whose directory opens, and only then. No read outside the buffer below 1 MiB of any bytes. False, with witnesses: 1 MiB or more of mounts is read past the buffer; a directory with a blank is printed escaped, its long line is empty and `rmfs` does not see it; another file-system whose line has the text is listed."
  },
  {
   "property": "C67",
   "status": "partial",
   "theorems": [
    "Silofs.Pw.C67_accept",
    "Silofs.Pw.C67_ways",
    "Silofs.Pw.C67_file",
    "Silofs.Pw.C67_tty",
    "Silofs.Pw.C67_pipe_partial",
    "Silofs.Pw.C67_pipe_violated",
    "Silofs.Pw.C67_again",
    "Silofs.Pw.C67_again_tty",
    "Silofs.Pw.C67_again_file_violated",
    "Silofs.Pw.C67_again_pipe_violated",
    "Silofs.Pw.C67_kept",
    "Silofs.Pw.C67_kept_apart",
    "Silofs.Pw.C67_none",
    "Silofs.Pw.C67_subopts_partial",
    "Silofs.Pw.C67_comma_violated",
    "Silofs.Pw.C67_novalue_violated",
    "Silofs.Pw.C67_value_violated",
    "Silofs.Pw.C67_refused"
   ],
   "note": "Proved for all texts: exactly a password of 1 to 255 printable characters with blanks around is taken, and it is that password whether typed, in a file, in a pipe (written in one go) or given with -p; nothing is cut; mkfs takes it only when given twice the same; it is kept whole, and keys are derived from it and nothing else; mount's sub-options count as the last of each kind. False, with witnesses: a pipe written in two goes gives a part of the password; mkfs never takes one from a redirected file nor both from one write to a pipe; a password with a comma in -o passwd= is cut there; -o passwd without a value reads a null pointer; values behind other sub-options are ignored."
  },
  {
   "property": "C68",
   "status": "partial",
   "theorems": [
    "Silofs.Smq.C68_order",
    "Silofs.Smq.C68_storage",
    "Silofs.Smq.C68_sync_partial",
    "Silofs.Smq.C68_sync_violated",
    "Silofs.Smq.C68_done",
    "Silofs.Smq.C68_done_stored_partial",
    "Silofs.Smq.C68_reported_violated",
    "Silofs.Smq.C68_pinned",
    "Silofs.Smq.C68_released",
    "Silofs.Smq.C68_refs",
    "Silofs.Smq.C68_reload_partial",
    "Silofs.Smq.C68_no_deadlock",
    "Silofs.Smq.C68_bounded"
   ],
   "note": "Proved for every interleaving of any number of threads and any failures of writes: each queued write is attempted at most once and in the order of queueing; storage always has the content of the last successful write of each object; a flush that writes at once and succeeds leaves nothing queued by anybody; a request which ends with success had all its writes attempted; objects of writes not yet done are kept in memory, no reference is lost, and an object which may be dropped is in storage as last queued (no failure); no deadlock, and what a request has to wait for does not grow. False, with witness runs: a request ends with success although its write failed in another thread's hands (which gets the error); a later flush succeeds although an earlier write failed and its content is nowhere."
  },
  {
   "property": "C69",
   "status": "proved",
   "theorems": [
    "Silofs.Lk.C69_lists",
    "Silofs.Lk.C69_walk",
    "Silofs.Lk.C69_twice_in_lists",
    "Silofs.Hmq.C69_cache_transparent",
    "Silofs.Hmq.C69_cache_same",
    "Silofs.Hmq.C69_lru_queue",
    "Silofs.Hmq.C69_slots",
    "Silofs.Hmq.C69_dirty_queues",
    "Silofs.Hmq.C69_find",
    "Silofs.Hmq.C69_unlinked"
   ],
   "note": "Proved for every sequence of calls which respects the callers' contract (spelled out as `Legal`): links in memory behave as plain sequences, for lists by themselves and for the whole cache (hash chains, LRU queue, queues of changed objects); no null pointer is followed, no assertion fails, nothing is taken for an object which is none. The contract of the lists is needed: C69_twice_in_lists is a run in which an object is put into a second list and the first can not be walked any more. Memory of objects is never used twice in the model; loads do not fail between creation and load (as in C55)."
  },
  {
   "property": "C70",
   "status": "partial",
   "theorems": [
    "Silofs.Cv.C70_size",
    "Silofs.Cv.C70_size_too_large",
    "Silofs.Cv.C70_size_junk",
    "Silofs.Cv.C70_size_negative",
    "Silofs.Cv.C70_size_violated",
    "Silofs.Cv.C70_size_negative_violated",
    "Silofs.Cv.C70_mkfs_last",
    "Silofs.Cv.C70_mkfs_bounds",
    "Silofs.Cv.C70_mkfs",
    "Silofs.Cv.C70_statfs",
    "Silofs.Cv.C70_mkfs_negative",
    "Silofs.Cv.C70_number_partial",
    "Silofs.Cv.C70_number_violated",
    "Silofs.Cv.C70_bool",
    "Silofs.Cv.C70_path",
    "Silofs.Cv.C70_path_refused"
   ],
   "note": "Sizes as written are parsed right, for all digits, fractions and units (strtold(3) is modelled with 64-bit significands), and mkfs makes a file-system of that size, or none. False of the code and shown so: \"inf\", \"1e30\" and \"9000000P\" reach a conversion of a floating-point number to an integer which can not hold it; \"-0\" and \"-0.5G\" are taken; \"1x\" is taken for 1 and \"010\" for 8 where a number is asked for."
  },
  {
   "property": "C71",
   "status": "partial",
   "theorems": [
    "Silofs.Oa.C71_options",
    "Silofs.Oa.C71_arguments",
    "Silofs.Oa.C71_in_force",
    "Silofs.Oa.C71_unknown",
    "Silofs.Oa.C71_documented_violated",
    "Silofs.Oa.C71_documented_partial"
   ],
   "note": "For all command lines made of known options, in all ways they may be written and in any order (getopt_long(3) included): the settings are those asked for, and so is what they cause in the mounted file-system. Unknown options end the command. False of the code and shown so: the help text offers --rdonly, --noexec and --nosuid, which are refused. Log levels are kept as text; passwords among sub-options have no comma (see C67)."
  },
  {
   "property": "C72",
   "status": "partial",
   "theorems": [
    "Silofs.Srv.C72_all_stored",
    "Silofs.Srv.C72_closed_is_quiet",
    "Silofs.Srv.C72_leader",
    "Silofs.Srv.C72_agreed",
    "Silofs.Srv.C72_no_worker_left",
    "Silofs.Srv.C72_unmount_ends",
    "Silofs.Srv.C72_signal_ends",
    "Silofs.Srv.C72_then_closes",
    "Silofs.Srv.C72_workers_end",
    "Silofs.Srv.C72_handshake_violated",
    "Silofs.Srv.C72_unmount_violated",
    "Silofs.Srv.C72_second_signal_violated",
    "Silofs.Srv.C72_slow_violated",
    "Silofs.Srv.C72_signal_violated",
    "Silofs.Srv.C72_worker_violated"
   ],
   "note": "All interleavings of any number of dispatchers and workers with the main thread. Proved: a daemon which has ended in good order has stored every change; no request is executed while it closes; nobody serves before the handshake took place but the first dispatcher; no worker runs while it closes; after an unmount all dispatchers end within a bounded number of rounds under every schedule, and so they do after a signal if no more requests come. False of the code and shown so: a failed handshake, or dispatchers which end by an error, leave a daemon which never ends; a second signal during the close blocks for ever; a slow store makes the main thread panic, with changes lost; requests which keep coming keep a signal without effect; one failure ends the background worker for good."
  },
  {
   "property": "C73",
   "status": "partial",
   "theorems": [
    "Silofs.Cn.C73_sizes",
    "Silofs.Cn.C73_starts",
    "Silofs.Cn.C73_flags",
    "Silofs.Cn.C73_flags_offered",
    "Silofs.Cn.C73_no_acl",
    "Silofs.Cn.C73_no_writeback",
    "Silofs.Cn.C73_splice_offered",
    "Silofs.Cn.C73_received",
    "Silofs.Cn.C73_whole",
    "Silofs.Cn.C73_spliced",
    "Silofs.Cn.C73_accepted_iff",
    "Silofs.Cn.C73_accepted_partial",
    "Silofs.Cn.C73_starts_violated",
    "Silofs.Cn.C73_pipe_violated",
    "Silofs.Cn.C73_accepted_violated",
    "Silofs.Cn.C73_limit_violated",
    "Silofs.Cn.C73_export_violated",
    "Silofs.Cn.C73_fallback"
   ],
   "note": "All page sizes the program runs on, all limits of pipes, all outcomes of opening pipes, all kernels. Proved: the sizes announced fit the buffers and pipes, so that every READ and WRITE the kernel may send arrives whole and is not cut; the accepted capabilities are exactly a fixed list within the offered ones; and which systems have all lengths accepted. False of the code and shown so: with pages of 8K or 16K (or a raised kernel limit) without pipes, announced writes above 2M-64K get EINVAL; a pipe larger than the limit makes every request fail after a successful mount; a limit of two pages refuses a mount which would work without pipes; EXPORT_SUPPORT is promised and \".\" and \"..\" are never found."
  },
  {
   "property": "C74",
   "status": "partial",
   "theorems": [
    "Silofs.Fi.C74_succeeds_iff",
    "Silofs.Fi.C74_teardown",
    "Silofs.Fi.C74_holds",
    "Silofs.Fi.C74_all_or_nothing_partial",
    "Silofs.Fi.C74_memory",
    "Silofs.Fi.C74_memory_exact",
    "Silofs.Fi.C74_memory_floor_violated",
    "Silofs.Fi.C74_derive_violated",
    "Silofs.Fi.C74_hash_violated",
    "Silofs.Fi.C74_repo_table_violated",
    "Silofs.Fi.C74_repo_mutex_violated",
    "Silofs.Fi.C74_dispatcher_violated",
    "Silofs.Fi.C74_slippery_sharp"
   ],
   "note": "Every pattern of denials of every step of the setup, all sizes of the map of ids, all numbers of processors, both allocators, with and without FUSE queue and password. Proved: the setup succeeds exactly when there is memory and all needed steps succeed; it then holds exactly what the command wants; taking it down always leaves nothing; a refused setup leaves nothing unless one of four named kinds of steps is denied; the memory chosen is within all limits and accepted by the allocator. False of the code and shown so: a failing key derivation leaves the locks and ciphers of the environment; a failing hash leaves its handle; a denied table or mutex of the repository destroys an uninitialised mutex (and leaks the table); a denied buffer of a dispatcher other than the last crashes; the stated lower bound of 256M is not kept on machines below 1G."
  },
  {
   "property": "C75",
   "status": "partial",
   "theorems": [
    "Silofs.Cs.C75_named_partial",
    "Silofs.Cs.C75_named_kept",
    "Silofs.Cs.C75_others_kept",
    "Silofs.Cs.C75_frame",
    "Silofs.Cs.C75_content",
    "Silofs.Cs.C75_under_lock",
    "Silofs.Cs.C75_clean",
    "Silofs.Cs.C75_mkfs_ok",
    "Silofs.Cs.C75_rmfs_ok_partial",
    "Silofs.Cs.C75_archive_ok",
    "Silofs.Cs.C75_restore_ok",
    "Silofs.Cs.C75_snap_ok",
    "Silofs.Cs.C75_rmfs_name_violated",
    "Silofs.Cs.C75_mkfs_failed_violated",
    "Silofs.Cs.C75_mkfs_killed_violated",
    "Silofs.Cs.C75_restore_content_violated",
    "Silofs.Cs.C75_restore_removed_violated",
    "Silofs.Cs.C75_restore_failed_violated",
    "Silofs.Cs.C75_restore_lock_violated",
    "Silofs.Cs.C75_snap_race_violated",
    "Silofs.Cs.C75_snap_killed_violated",
    "Silofs.Cs.C75_archive_race_violated",
    "Silofs.Cs.C75_exclusive_partial"
   ],
   "note": "Any number of commands (mkfs, mount, fsck, rmfs, archive, restore, offline snap) at the same time on one repository, their steps interleaved in any way, each step done, refused, failed before or after its effect or half-way, or the one at which the process is killed. Proved: what a name refers to is there at every moment but for what a removal removed or a failing restore overwrote; with no removal and no restore every name always opens; removals leave all other names alone provided nobody takes a snapshot of a name being removed and nobody restores; names and contents are changed only by the commands that are for it; all changes but those of snap are made under a lock; a command that has ended holds nothing; and exactly what is so when each command reports success. False of the code and shown so: rmfs can report success and leave a name that no command can ever get rid of; mkfs can report failure though the file-system is there; restoring beside the original rolls it back, breaks it when it fails, and its removal removes both; restore removes a lock of others and leaves its own; snap against rmfs; two archives under one name; a killed snap leaves a file-system that can neither be used nor removed."
  },
  {
   "property": "C76",
   "status": "partial",
   "theorems": [
    "Silofs.Mc.C76_mount_place",
    "Silofs.Mc.C76_mount_true_partial",
    "Silofs.Mc.C76_mount_found",
    "Silofs.Mc.C76_mount_fail_partial",
    "Silofs.Mc.C76_mount_refused",
    "Silofs.Mc.C76_mount_iff",
    "Silofs.Mc.C76_mount_prompt",
    "Silofs.Mc.C76_mount_not",
    "Silofs.Mc.C76_umount_target",
    "Silofs.Mc.C76_umount_done",
    "Silofs.Mc.C76_umount_fail_partial",
    "Silofs.Mc.C76_umount_stored_partial",
    "Silofs.Mc.C76_umount_gone",
    "Silofs.Mc.C76_umount_ends",
    "Silofs.Mc.C76_late_violated",
    "Silofs.Mc.C76_two_mounts_violated",
    "Silofs.Mc.C76_slow_server_violated",
    "Silofs.Mc.C76_lazy_violated",
    "Silofs.Mc.C76_relative_violated",
    "Silofs.Mc.C76_lost_answer_violated",
    "Silofs.Mc.C76_first_entries_violated"
   ],
   "note": "The system is a function of time and may change between any two looks. Proved: mount goes on only with an own, bare directory which is no root of a mount; success means that the daemon has mounted there, provided nobody else mounts there in the meantime; with a look each second success is reported if and only if the daemon has mounted within nineteen seconds; umount asks only for a live mount of ours, or by force for one without server; success means detached with the flags asked for, and the server gone, or there for all of the last two minutes; failure means nothing was detached unless the connection broke; both commands end. False, with witnesses: a daemon that is late comes up after failure was reported; of two mounts at one directory both report success; umount reports success though the server still stores (after two minutes, or lazily after two seconds); a relative path with force; a lost answer; emptiness by the first entries."
  },
  {
   "property": "C77",
   "status": "partial",
   "theorems": [
    "Silofs.Md.C77_room",
    "Silofs.Md.C77_tame_partial",
    "Silofs.Md.C77_served",
    "Silofs.Md.C77_own",
    "Silofs.Md.C77_authorized",
    "Silofs.Md.C77_dead",
    "Silofs.Md.C77_full",
    "Silofs.Md.C77_waiting",
    "Silofs.Md.C77_descriptors_violated",
    "Silofs.Md.C77_mute_violated",
    "Silofs.Md.C77_panic_violated",
    "Silofs.Md.C77_halt_violated",
    "Silofs.Md.C77_lost_violated",
    "Silofs.Md.C77_case"
   ],
   "note": "The daemon with any number of clients, their bytes and descriptors arriving in any order. Proved: it keeps within its descriptors; as long as clients send no descriptor, or a closable one with a message of some length, it lives and loses none; clients are served in order, behind n polite ones after n+1 turns; everything done and answered is of a message of one who came, with the ids they came with, so each mount is authorized as C46 says. False, for daemons of any configuration: a user whom no rule lets can use up its descriptors with one-byte messages so that nothing is ever mounted again; one silent client stops the service for all; a descriptor which cannot be closed kills it; it takes eight signals to stop one that waits; a lost answer leaves a mount nobody serves."
  },
  {
   "property": "C78",
   "status": "partial",
   "theorems": [
    "Silofs.Rf.C78_open",
    "Silofs.Rf.C78_never_half",
    "Silofs.Rf.C78_init_keeps",
    "Silofs.Rf.C78_made",
    "Silofs.Rf.C78_format_again",
    "Silofs.Rf.C78_format_made_partial",
    "Silofs.Rf.C78_init_again_violated",
    "Silofs.Rf.C78_no_conf_violated",
    "Silofs.Rf.C78_open_lost_violated",
    "Silofs.Rf.C78_format_file_violated"
   ],
   "note": "Making and opening a repository, one host system call after the other, each of which may fail or be the last before a kill. Proved: open changes nothing and succeeds exactly when the parts it asks for are there and usable; after any number of attempts, failed or killed anywhere, what opens is whole; init never touches a directory with anything in it; success means a whole repository and the ids file; the library's format can always be repeated. False: the command cannot be repeated after a failure; a failure at the last step leaves a repository without its ids file; open does not notice that the directories of objects are lost; format takes a file for a directory."
  },
  {
   "property": "C79",
   "status": "partial",
   "theorems": [
    "Silofs.Fk.C79_fsck",
    "Silofs.Fk.C79_fsck_all",
    "Silofs.Fk.C79_fsck_keeps",
    "Silofs.Fk.C79_blind",
    "Silofs.Fk.C79_view",
    "Silofs.Fk.Case.C79_data_violated",
    "Silofs.Fk.Case.C79_lost_violated",
    "Silofs.Fk.Case.C79_gap_violated",
    "Silofs.Fk.Case.C79_view_full_violated"
   ],
   "note": "fsck says that all is well exactly if every space map it meets is stored and verifies, and then has changed nothing (C79_fsck); for maps filled in order these are all the space maps of the file-system (C79_fsck_all). Whatever it finds, it changes nothing that is there, and adds at most one empty segment (C79_fsck_keeps). view succeeds when fsck does, and the addresses it prints hold exactly the bytes that belong to the file-system (C79_view). Violated: the answer of fsck depends on the space maps only (C79_blind), so the loss of any or all data, directories or inodes is not reported (C79_data_violated); checking a file-system with a lost space map makes an empty segment in its place (C79_lost_violated); maps behind an empty slot are not looked at (C79_gap_violated); view ends with success although its output could not be written (C79_view_full_violated). Hypothesis Strict: a block of zeros does not verify as a space map (C26). Not modelled: the opening of the file-system before the walk (C64), errors of the host other than missing or short files."
  },
  {
   "property": "C80",
   "status": "partial",
   "theorems": [
    "Silofs.Idn.C80_once",
    "Silofs.Idn.C80_same",
    "Silofs.Idn.C80_live",
    "Silofs.Idn.C80_synced_partial",
    "Silofs.Idn.Case.C80_crash_violated",
    "Silofs.Idn.Case.C80_survivor_violated"
   ],
   "note": "Without a crash, for any sequence of making, removing, asking, snapshots, syncs and mounts: two answers to the kernel with the same inode number and generation, as the bytes of struct fuse_entry_out, mean the same file (C80_once), and a file is always told by the same pair, in which neither is 0 (C80_same). With crashes: nothing is taken for a file that was made and then synced before it, nor two of these for each other (C80_synced_partial). Missing, and false: a file the kernel was told of before a crash, not synced, and one made after it can have the same pair (C80_crash_violated); a file made after the last sync that is still there after the crash can share its pair with one made much later, as the counter is not set right at mount (C80_survivor_violated). Assumed: fewer than 2^64 files are ever made; no number in use is given out (C19); a crash leaves what was synced or something newer of each inode and of the super block (C39)."
  },
  {
   "property": "C81",
   "status": "proved",
   "theorems": [
    "Silofs.Super.C81_shows",
    "Silofs.Super.C81_accepted",
    "Silofs.Super.C81_gate",
    "Silofs.Super.C81_fork",
    "Silofs.Super.C81_fork_apart",
    "Silofs.Super.C81_walk"
   ],
   "note": "Byte-level model of the super block and a volume record without bytes; refinement over every life of format, binding, counting, generations, flags and forks. Hypotheses: addresses passed by callers fit their fields and are of the right kind (as the callers make them), and counters stay within half of 63 bits, the range the loader accepts. The address a super block was loaded from is taken to be the one it names: no code compares them. Header and checksum are C43's."
  }
 ]
}