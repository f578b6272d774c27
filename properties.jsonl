{"id": "C01", "title": "File content follows the byte-array specification", "statement": "After any sequence of write, truncate, punch-hole, zero-range and preallocate calls on a file, every read returns exactly the bytes of an abstract byte array on which the same calls were performed: a write stores its bytes, truncation drops and later zero-extends, punched/zeroed/preallocated ranges that were never written read as zeros, and the reported size is the abstract length.", "quantifier": "all files, all finite histories of these calls, all offsets and lengths accepted by the API, all placements of blocks chosen by the allocator", "why_tests_cant": "the mapping (1K/4K head leaves, 64K leaves in a radix tree of height up to 5, unwritten flags, shared blocks) has unboundedly many shapes; tests sample a few offsets", "anchors": ["lib/file.c:filc_write_data", "lib/file.c:filc_read_data", "lib/file.c:filc_truncate", "lib/file.c:filc_discard_data_by", "lib/file.c:filc_fallocate"]}
{"id": "C02", "title": "Bytes never written read as zero (no stale-data exposure)", "statement": "A byte of a file that was never written through that file (holes, preallocated space, zero-ranged space, the tail of a partially written block, space re-used after another file was deleted) reads as zero; previously stored bytes never reappear.", "quantifier": "all histories over several files including block re-use, preallocation, zero-range and range copy", "why_tests_cant": "exposure depends on which physical block the allocator re-uses and what it contained before", "anchors": ["lib/file.c:filc_pre_write_leaf", "lib/file.c:filc_update_unwritten_by", "lib/file.c:filc_unshare_leaf_by", "lib/file.c:filc_copy_range_at_leaf_by", "lib/spmaps.c:silofs_sli_mark_allocated_space"]}
{"id": "C03", "title": "Files that share blocks stay independent", "statement": "After copy_file_range let two files (or two ranges) share storage, any later write, truncate, punch, zero-range or copy into one of them leaves every byte of every other file unchanged.", "quantifier": "all files, all sharing patterns created by range copies, all later operations", "why_tests_cant": "needs every combination of sharing count, alignment and operation", "anchors": ["lib/file.c:filc_detect_shared_by", "lib/file.c:filc_unshare_leaf_by", "lib/file.c:filc_copy_range_at_leaf_by", "lib/super.c:silofs_test_shared_dbkref"]}
{"id": "C04", "title": "copy_file_range copies exactly the requested bytes", "statement": "copy_file_range(src,so,dst,do,n) returns k = min(n, bytes of src after so), afterwards dst[do..do+k) equals src[so..so+k) as it was before, every other byte of dst is unchanged, and dst's size is max(old, do+k).", "quantifier": "all source/destination contents, offsets, lengths (including holes and unwritten space on either side)", "why_tests_cant": "the copy loop has four cases per leaf pair, alignment-dependent; tests use aligned or small copies", "anchors": ["lib/file.c:filc_copy_range_iter", "lib/file.c:filc_copy_range_at_leaf_by", "lib/file.c:filc_set_copy_range_start"]}
{"id": "C05", "title": "SEEK_DATA and SEEK_HOLE agree with file content", "statement": "lseek(SEEK_DATA,off) returns the least offset r>=off backed by data or ENXIO, and no non-zero byte lies in [off,r); lseek(SEEK_HOLE,off) returns the least offset >=off at which the file has a hole (end-of-file counts as hole).", "quantifier": "all file shapes, all offsets", "why_tests_cant": "depends on arbitrary sparse radix-tree shapes", "anchors": ["lib/file.c:filc_lseek_iter", "lib/file.c:filc_seek_tree_recursive", "lib/file.c:silofs_do_lseek"]}
{"id": "C06", "title": "Every file offset has exactly one leaf slot", "statement": "The offset-to-slot mapping of a file is a partition: every offset below the maximal file size belongs to exactly one leaf (1K, 4K or 64K), the radix-tree path computed for it has in-range slot indexes at every level, two offsets get the same leaf path iff they lie in the same aligned leaf, and growing the tree never changes the path suffix of an already mapped offset.", "quantifier": "all offsets in [0,2^56), all tree heights", "why_tests_cant": "2^56 offsets", "anchors": ["lib/file.c:off_to_tree_height", "lib/file.c:ftn_slot_by_file_pos", "lib/file.c:off_to_head1_slot", "lib/file.c:filc_create_tree_spine"]}
{"id": "C07", "title": "I/O range checks reject exactly the illegal requests", "statement": "A read/write/fallocate/lseek/copy request is rejected (EINVAL/EFBIG/EOVERFLOW) iff its offset or end lies outside [0,max file size] or its length exceeds the I/O limit; rejected requests change nothing, and no accepted request overflows 64-bit arithmetic.", "quantifier": "all 64-bit offsets and lengths, including negative and near-overflow values", "why_tests_cant": "boundary arithmetic over 2^128 pairs", "anchors": ["lib/file.c:filc_check_file_io", "lib/file.c:filc_check_io_range", "lib/file.c:silofs_do_fallocate"]}
{"id": "C08", "title": "A directory is a map from names to inodes", "statement": "After any sequence of successful and failed insertions and removals, lookup(name) succeeds iff the name was inserted and not removed since, and returns the inode and type recorded by the last insertion; an insertion that fails (no space, no memory) changes no name.", "quantifier": "all histories of add/remove/lookup, all byte-string names up to 255 bytes, all hash functions/seeds including full collisions, all allocation failures", "why_tests_cant": "hash-tree overflow to deeper nodes needs adversarial hash collisions and thousands of names", "anchors": ["lib/dir.c:silofs_lookup_dentry", "lib/dir.c:silofs_add_dentry", "lib/dir.c:silofs_remove_dentry", "lib/dir.c:dtn_search", "lib/dir.c:dtn_insert", "lib/dir.c:dtn_remove"]}
{"id": "C09", "title": "readdir lists every entry exactly once", "statement": "Iterating a directory that is not modified meanwhile, from the start and continuing from each returned offset with any buffer sizes, yields '.', '..' and every entry exactly once and then end-of-stream.", "quantifier": "all directory trees reachable by the API, all chunkings of the iteration", "why_tests_cant": "deep trees (depth 4) need hundreds of thousands of colliding names", "anchors": ["lib/dir.c:silofs_do_readdir", "lib/dir.c:dirc_readdir_iter", "lib/dir.c:dirc_stage_node_by_index"]}
{"id": "C10", "title": "readdir under concurrent changes never skips a stable entry", "statement": "An entry that exists during a whole iteration is reported at least once, even when other entries are added or removed between the readdir calls.", "quantifier": "all interleavings of add/remove with a chunked iteration", "why_tests_cant": "needs all interleavings", "anchors": ["lib/dir.c:dirc_readdir_iter", "lib/dir.c:dtn_remove", "lib/dir.c:doffset_to_index"]}
{"id": "C11", "title": "Directory nodes never overflow their byte buffer", "statement": "In every directory node the entry table (growing up) and the packed name bytes (growing down) never overlap, each active entry's name is stored contiguously inside the buffer and is exactly the inserted name, and removal preserves all other names byte for byte.", "quantifier": "all sequences of inserts and removes on a node, all name lengths", "why_tests_cant": "byte-layout corruption depends on exact length sequences", "anchors": ["lib/dir.c:dtn_may_insert", "lib/dir.c:dtn_insert", "lib/dir.c:dtn_punch", "lib/dir.c:dtn_remove"]}
{"id": "C12", "title": "Directory tree index arithmetic is a bijection", "statement": "parent/child/ordinal/depth arithmetic of directory nodes is consistent: child(parent(i),ord(i))=i, distinct (parent,ordinal) pairs give distinct indexes, depth(child)=depth(parent)+1, and readdir offsets encode/decode (node,slot) without loss.", "quantifier": "all node indexes below the maximal index, all slots", "why_tests_cant": "2^24 x 480 combinations", "anchors": ["lib/dir.c:dtree_parent_index_of", "lib/dir.c:dtree_child_index_of", "lib/dir.c:make_doffset", "lib/dir.c:doffset_to_slot"]}
{"id": "C13", "title": "Link counts equal the number of names", "statement": "After any history of create, mknod, symlink, mkdir, link, unlink, rmdir and rename, a non-directory's link count equals the number of directory entries naming it and a directory's link count equals 2 plus the number of its sub-directories.", "quantifier": "all histories, including failing operations, by any users", "why_tests_cant": "histories are unbounded", "anchors": ["lib/namei.c:do_link", "lib/namei.c:do_unlink", "lib/namei.c:do_rename", "lib/dir.c:dirc_update_nlink"]}
{"id": "C14", "title": "An inode lives exactly as long as it is named or open", "statement": "An inode's storage is released at the first moment it has neither a name nor an open handle: an unlinked file stays fully usable while open, disappears on last release, and no named or open inode is ever released.", "quantifier": "all interleavings of open, release, link, unlink, rmdir, rename, forget", "why_tests_cant": "needs all interleavings of open handles and namespace changes", "anchors": ["lib/namei.c:try_prune_inode", "lib/namei.c:do_release", "lib/namei.c:drop_ispecific", "lib/namei.c:update_nopen"]}
{"id": "C15", "title": "rename follows POSIX", "statement": "A successful rename(old,new) makes new name the inode that old named, removes old unless both names already refer to the same inode (then nothing changes), drops the replaced inode's link; EXCHANGE swaps both; NOREPLACE fails iff new exists; a directory never becomes its own descendant.", "quantifier": "all trees, all pairs of names, all flag combinations", "why_tests_cant": "case analysis over tree relations and flags", "anchors": ["lib/namei.c:do_rename", "lib/namei.c:check_rename", "lib/namei.c:do_rename_replace", "lib/namei.c:do_rename_exchange"]}
{"id": "C16", "title": "A failed namespace operation has no effect", "statement": "If create, mknod, symlink, mkdir, link, unlink, rmdir or rename returns an error, the set of (directory,name,inode) entries and all link counts are as before.", "quantifier": "all states, all error causes including allocation failure at any internal step", "why_tests_cant": "needs a fault at every allocation point", "anchors": ["lib/namei.c:do_create", "lib/namei.c:do_mkdir", "lib/namei.c:do_rename", "lib/dir.c:silofs_add_dentry"]}
{"id": "C17", "title": "Permission checks implement the POSIX owner/group/other rule", "statement": "access(mode) is granted iff POSIX grants it: the first matching class (owner, group, other) decides alone; privileged users get read/write always and execute on regular files only if some execute bit is set.", "quantifier": "all modes, owners, groups, credentials and requested masks", "why_tests_cant": "small but combinatorial; the statement is about exclusivity of classes", "anchors": ["lib/namei.c:do_access", "lib/namei.c:check_access"]}
{"id": "C18", "title": "Sticky directories protect entries", "statement": "In a sticky directory a caller who owns neither the directory nor the entry and is not privileged can not remove, replace or rename the entry.", "quantifier": "all credentials, owners, all removing operations (unlink, rmdir, rename source/target)", "why_tests_cant": "needs every operation/credential combination", "anchors": ["lib/namei.c:check_sticky", "lib/namei.c:check_prepare_unlink", "lib/namei.c:check_rename"]}
{"id": "C19", "title": "Space is never handed out twice", "statement": "At any time the storage units in use by live objects (inodes, directory nodes, data blocks, ...) are pairwise disjoint: an allocation never returns space that overlaps space already in use.", "quantifier": "all histories of allocate, share, free over all object kinds and sizes, cache states", "why_tests_cant": "histories are unbounded, overlap depends on bitmap alignment", "anchors": ["lib/spmaps.c:spleaf_find_free", "lib/spmaps.c:bkr_find_free", "lib/claim.c:silofs_claim_vspace", "lib/spmaps.c:silofs_sli_mark_allocated_space"]}
{"id": "C20", "title": "A shared block is freed exactly when its last user goes away", "statement": "The reference count of a data block equals the number of file slots that refer to it; the block becomes allocatable again exactly when that number reaches zero, never earlier.", "quantifier": "all histories of allocate, share (addref), release", "why_tests_cant": "unbounded histories", "anchors": ["lib/spmaps.c:spleaf_ref_allocated_at", "lib/spmaps.c:spleaf_unref_allocated_at", "lib/claim.c:silofs_addref_vspace", "lib/claim.c:silofs_reclaim_vspace"]}
{"id": "C21", "title": "Space accounting is exact", "statement": "The number of used bytes/objects reported per kind equals the space actually allocated; freeing what was allocated returns the counters to their former values; taking a snapshot does not change totals; reported free space is never larger than capacity.", "quantifier": "all histories of allocate/share/free/snapshot", "why_tests_cant": "drift shows only after long histories", "anchors": ["lib/stats.c:silofs_sti_update_objs", "lib/stats.c:silofs_sti_bytes_used", "lib/stats.c:silofs_sti_fill_statvfs", "lib/spmaps.c:silofs_sli_nused_bytes"]}
{"id": "C22", "title": "The capacity limit is enforced", "statement": "No allocation succeeds if it would push the used space beyond the configured capacity (with the reserved margin), and data allocations additionally leave a metadata reserve.", "quantifier": "all capacities, all histories", "why_tests_cant": "arithmetic over all sizes", "anchors": ["lib/stats.c:silofs_sti_mayalloc_some", "lib/stats.c:silofs_sti_mayalloc_data", "lib/stats.c:silofs_sti_mayalloc_meta", "lib/claim.c:spac_check_avail_space"]}
{"id": "C23", "title": "The free-range cache only returns ranges it was given", "statement": "Ranges popped from the in-memory free-space cache are pairwise disjoint and each is part of a range that was added before and not popped since; adding and merging never invents or duplicates space.", "quantifier": "all sequences of add/pop/drop with any range lengths and memory-allocation failures", "why_tests_cant": "depends on merge order and failure points", "anchors": ["lib/spxmap.c:spamap_add_vspace", "lib/spxmap.c:spamap_pop_vspace", "lib/spxmap.c:spamap_insert_vspace", "lib/spxmap.c:silofs_spamaps_store"]}
{"id": "C24", "title": "Snapshots are immutable", "statement": "After a snapshot is taken, no later operation on the live file-system changes anything readable through the snapshot.", "quantifier": "all histories of operations after the snapshot, nested snapshots", "why_tests_cant": "requires all histories", "anchors": ["lib/vstage.c:vstgc_resolve_inspect_llink", "lib/vstage.c:vstgc_clone_spleaf", "lib/super.c:silofs_sbi_clone_from", "lib/super.c:silofs_sbi_ismutable_laddr"]}
{"id": "C25", "title": "Taking a snapshot does not change the live file-system", "statement": "After a snapshot every object of the live file-system still reads as before, and the first modification of part of a block preserves all other bytes of that block.", "quantifier": "all block contents, all partial modifications, all cache states (cached or evicted, remounted)", "why_tests_cant": "depends on which blocks happen to be cached when the first write occurs", "anchors": ["lib/vstage.c:vstgc_pre_clone_stage_at", "lib/vstage.c:vstgc_clone_lbk_at", "lib/file.c:filc_require_mut_vaddr"]}
{"id": "C26", "title": "Corrupted metadata blocks are rejected", "statement": "A metadata block is accepted on load only if its header carries the right type and size and its checksum matches its content; a sealed block is always accepted.", "quantifier": "all block contents, all single and multiple bit changes outside the hash's collisions", "why_tests_cant": "2^(8*size) contents", "anchors": ["lib/addr/meta.c:silofs_hdr_seal", "lib/addr/meta.c:silofs_hdr_verify", "lib/lnodes.c:lni_verify_hdr"]}
{"id": "C27", "title": "On-disk address encodings are lossless", "statement": "Every address stored on disk (virtual address in 56/64 bits, ranges, segment and physical addresses) decodes to the address that was encoded, and distinct valid addresses have distinct encodings.", "quantifier": "all representable addresses, including null addresses and extreme offsets", "why_tests_cant": "2^56+ values", "anchors": ["lib/addr/vaddr.c:silofs_vaddr56_htox", "lib/addr/vaddr.c:silofs_vaddr64_htox", "lib/addr/vaddr.c:silofs_vrange128_htox", "lib/addr/laddr.c:silofs_laddr48b_htox", "lib/addr/paddr.c:silofs_paddr48b_htox"]}
{"id": "C28", "title": "Base64 encode/decode round-trips and stays in bounds", "statement": "Decoding the encoding of any byte string returns that string; the encoder and decoder never write past the given buffer; malformed text is rejected without undefined behaviour.", "quantifier": "all byte strings, all buffer sizes, all text inputs", "why_tests_cant": "all lengths modulo 3, all bytes", "anchors": ["lib/infra/base64.c:silofs_base64_encode", "lib/infra/base64.c:silofs_base64_decode"]}
{"id": "C29", "title": "Encrypted blocks decrypt to what was stored, and only at their own address", "statement": "A block encrypted for an address decrypts at that address to the original bytes; the effective initial vector depends on the address and the per-block random seed, so two different addresses or seeds give the same vector only if their XOR-folded values coincide.", "quantifier": "all blocks, addresses, seeds, keys", "why_tests_cant": "unbounded inputs", "anchors": ["lib/encdec.c:silofs_encrypt_view", "lib/encdec.c:silofs_decrypt_view", "lib/addr/laddr.c:silofs_laddr_as_iv", "lib/crypt/ivkey.c"]}
{"id": "C30", "title": "Virtual-range arithmetic partitions the address space", "statement": "At every height of the space-map tree the ranges computed for children tile the parent's range exactly: each virtual offset belongs to exactly one child slot, the slot computation never overflows, and next/prev ranges are adjacent and disjoint.", "quantifier": "all virtual offsets and heights", "why_tests_cant": "2^58 offsets x 7 heights", "anchors": ["lib/addr/vaddr.c:silofs_vrange_of_spmap", "lib/addr/vaddr.c:silofs_height_to_space_span", "lib/spmaps.c:spnode_slot_of"]}
{"id": "C31", "title": "Extended attributes of an inode form a map", "statement": "After any sequence of setxattr (create/replace/default), removexattr, getxattr, listxattr on an inode, getxattr(name) returns the value of the last successful set not followed by a remove, listxattr returns exactly the present names once each, CREATE fails iff present, REPLACE fails iff absent, and a failing set changes nothing - also after the cached nodes were evicted and re-loaded.", "quantifier": "all histories, all names up to 255 bytes and values up to 2048 bytes, all cache evictions between calls", "why_tests_cant": "multi-node placement and eviction timing are not reachable by a few sets", "anchors": ["lib/xattr.c:xac_setxattr_replace", "lib/xattr.c:xan_insert", "lib/xattr.c:xan_remove", "lib/xattr.c:xac_lookup_entry"]}
{"id": "C32", "title": "readlink returns the symlink target", "statement": "If symlink(target) reports success, readlink returns exactly target (cut to the caller's buffer size).", "quantifier": "all targets up to 4096 bytes, all allocation outcomes", "why_tests_cant": "needs allocation failure inside the target's 2nd or 3rd part", "anchors": ["lib/symlink.c:sylc_do_symlink", "lib/symlink.c:symval_desc_setup", "lib/symlink.c:sylc_extern_symval"]}
{"id": "C33", "title": "Ownership and mode changes obey POSIX privilege rules", "statement": "chmod succeeds only for the owner or a privileged user and never changes the file type; chown of the user id only for privileged users, of the group id only for the owner (to one of the caller's groups) or a privileged user; an unprivileged change clears set-id bits on executables; a write or truncate by an unprivileged user clears set-id bits.", "quantifier": "all modes, ids, credentials", "why_tests_cant": "combinatorial", "anchors": ["lib/inode.c:check_chmod", "lib/inode.c:check_chown", "lib/inode.c:kill_suid_sgid", "lib/file.c:filc_update_post_io"]}
{"id": "C34", "title": "User/group id mapping round-trips", "statement": "For every host id that maps to a file-system id, mapping back yields the same host id; ids without mapping are refused or passed through unchanged according to the configured policy.", "quantifier": "all id tables accepted by the configuration, all ids", "why_tests_cant": "depends on duplicates/overlaps in the configured table", "anchors": ["lib/idsmap.c:silofs_idsmap_map_uidgid", "lib/idsmap.c:silofs_idsmap_rmap_uidgid", "lib/idsmap.c:idsmap_insert_umap"]}
{"id": "C35", "title": "Name, link and open-file limits always hold", "statement": "Every name has 1 to 255 bytes; no non-directory has more than 32767 links; the count of open files equals the number of inodes that are open and never exceeds the configured limit.", "quantifier": "all histories of name-space operations by any users with any internal failures", "why_tests_cant": "a limit missed on one path (rename, mknod, error undo) shows only after a long history", "anchors": ["lib/namei.c:check_open_limit", "lib/namei.c:update_nopen", "lib/namei.c:check_nomlink", "lib/namei.c:do_rename", "lib/namei.c:check_add_dentry"]}
{"id": "C36", "title": "A new object has the requested type, the caller as owner, and the requested mode minus the umask", "statement": "After a successful create, mknod, mkdir or symlink the given name refers to a fresh inode of the requested type owned by the caller, whose permission bits are the requested ones without those of the umask (a new directory also inherits set-group-ID).", "quantifier": "all states, credentials, modes, umasks, names", "why_tests_cant": "all combinations of mode bits and umask bits", "anchors": ["lib/inode.c:inode_setup_common", "lib/namei.c:do_create", "lib/namei.c:do_mknod", "lib/namei.c:do_mkdir"]}
{"id": "C40", "title": "Time stamps and attribute changes take effect as requested", "statement": "Reading marks the access time, changing content marks modification and change time, changing attributes marks the change time, and requests that change nothing mark nothing; explicit times may be set by the owner or a privileged user only; marks survive write-back and eviction of the inode; an attribute request either takes effect as a whole or not at all.", "quantifier": "all inodes, callers, requests, histories, points of eviction", "why_tests_cant": "eviction points and combinations of attributes in one request are not controlled by tests", "anchors": ["lib/inode.c:ii_update_inode_attr", "lib/inode.c:do_utimens", "lib/inode.c:check_utimens", "lib/file.c:filc_update_post_io", "lib/fuseq.c:op_setattr", "lib/fuseq.c:utimens_of"]}
{"id": "C41", "title": "Only the users a mount is open to can use it, with their mapped ids", "statement": "A request of a process is carried out only if its user is the owner of the mount, or root on a mount that allows root, or the mount allows others, and if both of its ids map; it then runs with the mapped ids. An unprivileged host user runs as root of the file system only if the id table says so.", "quantifier": "all mounts, id tables, callers", "why_tests_cant": "combinations of flags, tables and callers", "anchors": ["lib/opers.c:op_authorize", "lib/opers.c:op_map_creds", "lib/opers.c:op_is_kernel", "lib/idsmap.c:silofs_idsmap_map_uidgid"]}
{"id": "C37", "title": "The ordered index behaves as a sorted list", "statement": "After any history of insertions, unique insertions, removals and clearing, the ordered index holds exactly the inserted and not removed elements, in key order (equal keys in order of insertion); searches, bounds and ranges by key return what a scan of that sorted list returns, iteration visits every element once in order, unique insertion refuses exactly duplicates, clearing visits every element exactly once, and no operation crashes; depth stays logarithmic.", "quantifier": "all element types, keys, lawful comparison functions, all histories", "why_tests_cant": "the rotations depend on shapes of the whole tree; unboundedly many shapes", "anchors": ["lib/infra/avl.c:silofs_avl_insert", "lib/infra/avl.c:silofs_avl_insert_unique", "lib/infra/avl.c:silofs_avl_remove", "lib/infra/avl.c:silofs_avl_find", "lib/infra/avl.c:silofs_avl_lower_bound", "lib/infra/avl.c:silofs_avl_equal_range", "lib/infra/avl.c:silofs_avl_clear"]}
{"id": "C42", "title": "Addresses compare equal only if same, and comparison is an order", "statement": "Two addresses (persistent, logical, unode, virtual, blob ids, and cache keys of any kind) compare as equal exactly if they are the same; for each kind the comparison is antisymmetric and transitive, so sorting a set of addresses gives the same order however the set was collected.", "quantifier": "all pairs and triples of addresses", "why_tests_cant": "needs all pairs of types, offsets and ids; integer conversions matter", "anchors": ["lib/addr/vaddr.c:silofs_vaddr_compare", "lib/addr/laddr.c:silofs_laddr_compare", "lib/addr/uaddr.c:silofs_uaddr_compare", "lib/addr/paddr.c:silofs_paddr_compare", "lib/addr/blobid.c:silofs_blobid_compare", "lib/hmdq/hmapq.c:silofs_hkey_compare", "lib/flush.c:dset_add_dirty"]}
{"id": "C39", "title": "What sync has confirmed survives a crash; caching is invisible", "statement": "Flushing, submission, eviction from and reloading into the cache never change what any operation sees.  After a successful sync of the file-system (or fsync of a file, or a write with O_SYNC) everything written before (to that file) is on storage and is found after a crash.  Data is stored before the metadata that refers to it, metadata before the space maps.  If a flush or write fails, nothing is lost: later syncs store it or fail too.", "quantifier": "all histories of modifications, loads, evictions, flushes and submissions; all packings of objects into writes; all outcomes of the calls that may fail", "why_tests_cant": "needs crashes between any two steps, failing calls, and copies in progress during a flush", "anchors": ["lib/flush.c:silofs_flush_dirty", "lib/flush.c:flusher_process_dset_at", "lib/task.c:silofs_sqe_append_ref", "lib/task.c:submitq_apply", "lib/namei.c:do_fsync", "lib/fuseq.c:fqd_do_exec_request", "lib/hmdq/dirtyq.c"]}
{"id": "C38", "title": "st_blocks is the space the file uses", "statement": "The number of blocks reported by stat for a file is exactly the space of the data blocks mapped by the file, after any sequence of writes, truncations, hole punching, preallocation and range copies, including those that failed half way. For a directory it is the space of the nodes which hold its entries, for a symbolic link that of the nodes which hold its target; a directory which has become empty uses none.", "quantifier": "all histories of requests and copies on any files, of additions to and removals from directories, and all targets; all failures", "why_tests_cant": "the counter is adjusted at each allocation and release, so an error in any path of any history accumulates", "anchors": ["lib/inode.c:silofs_ii_update_iblocks", "lib/inode.c:ii_stat_blocks", "lib/file.c:filc_create_data_leaf", "lib/file.c:filc_discard_data_leaf", "lib/file.c:filc_share_leaf_by", "lib/file.c:filc_unshare_leaf_by", "lib/dir.c:dirc_update_isizeblocks", "lib/dir.c:dirc_drop_tree", "lib/dir.c:dirc_discard_childs_of", "lib/symlink.c:sylc_bind_symval_part"]}
{"id": "C43", "title": "What is stored is accepted when loaded; what is accepted is safe", "statement": "Every object the file-system writes after any sequence of operations passes the verification made when the object is loaded again; and an object that passes verification, whatever its bytes, cannot make a later lookup or update read or write outside of the object.", "quantifier": "all operation histories; all byte contents of a node", "why_tests_cant": "the first part needs histories that reach limits (tens of thousands of links, billions of references); the second ranges over all forged or damaged contents", "anchors": ["lib/dir.c:silofs_verify_dtree_node", "lib/dir.c:silofs_verify_dir_inode", "lib/xattr.c:silofs_verify_xattr_node", "lib/file.c:silofs_verify_ftree_node", "lib/spmaps.c:silofs_verify_spmap_leaf", "lib/inode.c:silofs_verify_inode", "lib/namei.c:do_rename_move"]}
{"id": "C44", "title": "Deleting a file-system removes all of it and nothing else", "statement": "Deleting a file-system or snapshot does not change the content of any other one in the repository, even if the deletion is interrupted; a deletion that completes gives back all storage that no other file-system uses; an interrupted one can be run again with the same result.", "quantifier": "all histories of writes, allocations, frees, flushes, evictions, snapshots, mounts and deletions; all points at which a deletion stops", "why_tests_cant": "the set of storage shared between file-systems depends on the whole history of snapshots and copies-on-write, and an interruption can fall between any two removals", "anchors": ["lib/delfs.c:silofs_walk_unref_fs", "lib/walk.c:silofs_walk_space_tree", "lib/execlib.c:silofs_unref_fs", "lib/execlib.c:check_superblock"]}
{"id": "C45", "title": "An archive restores the file-system it was made of", "statement": "Archiving a file-system and restoring the archive in any repository gives a file-system with the same content, and changes nothing else there; an archive that was damaged, or is incomplete, is refused and leaves no visible file-system; an archive is complete if it is reported as made.", "quantifier": "all file-systems (any tree of space maps), source and destination repositories, hash functions and contents of archive files", "why_tests_cant": "content, shape of the tree of space maps, coalescing of ranges and state of the destination are unbounded; damage can be at any byte", "anchors": ["lib/pack.c:silofs_fs_pack", "lib/pack.c:silofs_fs_unpack", "lib/pack.c:pindex_decode", "lib/inspect.c:silofs_walk_inspect_fs", "lib/spmaps.c:lmap_append", "lib/walk.c:silofs_walk_space_tree"]}
{"id": "C46", "title": "The privileged mount service only does what the user may ask for", "statement": "Whatever an unprivileged process sends to the mount service, a mount is made only at a directory of that user's own which a rule of the administrator opens to them, with their ids and with safe flags; a user who is entitled gets it; a user unmounts only their own file-systems of this kind.", "quantifier": "all byte strings sent, all peers, all rule sets, all histories of requests and all changes of the file-system between the checks", "why_tests_cant": "messages are arbitrary bytes from an untrusted process and the file-system changes at any moment between the checks", "anchors": ["lib/mntsvc.c:mntsvc_check_mount", "lib/mntsvc.c:mntsvc_check_mount_mntrule", "lib/mntsvc.c:check_mntpoint", "lib/mntsvc.c:mntsvc_check_umount", "lib/mntsvc.c:mntsvc_exec_umount", "lib/mntsvc.c:mntmsg_check", "lib/mntsvc.c:do_recvmsg"]}
{"id": "C47", "title": "The mount service's rules are those of its configuration file", "statement": "The rules in force are exactly those that the lines of the configuration file state, in order; nothing is opened to all users unless its line names no user; a text that does not follow the grammar is refused; each argument has the effect it names.", "quantifier": "all texts of the configuration file and all lists of lines of the grammar with any white space and comments", "why_tests_cant": "texts are unbounded strings; a misread rule opens a directory to others", "anchors": ["mntd/mntconf.c:mntc_parse_rules", "mntd/mntconf.c:mntc_parse_line", "mntd/mntconf.c:mntc_parse_rule_args", "mntd/mntconf.c:mntc_parse_long", "mntd/mntconf.c:mntc_parse_uid", "lib/str/strview.c:silofs_strview_split_chr"]}
{"id": "C48", "title": "Boot records open to what was saved, only with the password", "statement": "The boot record of a file-system opens, with its password, to exactly what was saved; changed bytes or another password are refused; a crash while saving loses neither this record nor others; without the password nothing is learned of its keys.", "quantifier": "all records, passwords, stores, changed bytes, and points at which saving is cut off", "why_tests_cant": "the store may hold any bytes and the crash may come anywhere; secrecy and authenticity are about all pairs of records", "anchors": ["lib/boot.c:silofs_save_bootrec", "lib/boot.c:silofs_load_bootrec", "lib/boot.c:silofs_encode_bootrec", "lib/boot.c:silofs_decode_bootrec", "lib/boot.c:bootrec_verify", "lib/boot.c:silofs_make_fsnamestr", "cmd/bootref.c:cmd_bref_tmp_pathname"]}
{"id": "C49", "title": "A snapshot as a whole: names, boot records and the mount", "statement": "After a successful snapshot the snapshot's name opens to the content of that moment for ever, the original name opens to what the mount is synced to, other names are unaffected; a snapshot that fails or is killed has no effect on what any name opens to nor on later changes.", "quantifier": "all contents, all histories of changes, syncs and snapshots, all failing steps, partial flushes and points of being killed", "why_tests_cant": "needs every combination of a failing step, a partly written flush and a killed command, and all later histories", "anchors": ["lib/namei.c:do_clone", "lib/fsenv.c:silofs_fsenv_forkfs", "lib/fsenv.c:fsenv_clone_rebind_super", "cmd/snap.c:cmd_execute_snap", "cmd/snap.c:cmd_snap_offline", "cmd/bootref.c:cmd_save_bref_file", "lib/execlib.c:check_superblock"]}
{"id": "C50", "title": "Commands on one file-system exclude each other", "statement": "At any time at most one command works on a file-system; a command that has ended, however it ended, leaves the file-system free for the next one; a name that a successful mkfs has made is not taken by another.", "quantifier": "any number of processes, all interleavings of their system calls, all kills and failures, all left-over files and clock readings", "why_tests_cant": "interleavings of system calls of several processes and kills at any of them", "anchors": ["cmd/locks.c:cmd_lock_fs", "cmd/locks.c:cmd_unlock_fs", "cmd/locks.c:cmd_lockfile_wait_noent", "cmd/locks.c:cmd_lockfile_mktemp", "cmd/locks.c:cmd_lockfile_mklock", "cmd/restore.c:cmd_restore_release_lockfile", "cmd/mkfs.c:cmd_mkfs_prepare"]}
{"id": "C51", "title": "What the kernel asks is what the file-system is asked, and what it answers is what the kernel is answered", "statement": "For each request of the kernel the file-system is asked for exactly that operation with exactly the request's arguments and in the name of its user; the kernel receives exactly one answer, for that request, with exactly the result of the operation. Nothing is passed on before the connection is set up, and nothing of other users if only the owner may use the mount.", "quantifier": "all requests, names, data, numbers, users and groups, both ways of receiving, all earlier contents of the buffer, all results of the file-system, all sequences of messages", "why_tests_cant": "a field read from a wrong offset or with a wrong width shows only for particular values; the buffer's earlier contents and the ways of receiving multiply the cases", "anchors": ["lib/fuseq.c:fqd_do_recv_in", "lib/fuseq.c:fqd_copy_pipe_in", "lib/fuseq.c:fqd_check_inhdr", "lib/fuseq.c:fqd_check_opcode", "lib/fuseq.c:fqd_check_perm", "lib/fuseq.c:fuseq_cmd_tbl", "lib/fuseq.c:do_setattr", "lib/fuseq.c:do_release", "lib/fuseq.c:do_setxattr2", "lib/fuseq.c:do_write", "lib/fuseq.c:fill_out_header", "lib/fuseq.c:stat_to_fuse_attr", "lib/fuseq.c:fqd_reply_lookup", "lib/opers.c:silofs_remap_status_code", "include/linux/fuse_kernel.h"]}
{"id": "C52", "title": "Lists arrive whole at the program", "statement": "A program that lists a directory through the kernel, in any number of replies of any usual size and of either kind, reads from the bytes exactly the directory's entries, each once, with its inode, type and attributes; a program that lists the extended attributes of a file gets exactly their names, or the number of bytes they need, or ERANGE if its buffer is too small.", "quantifier": "all directories and histories, names, positions, sizes of replies, attributes, all sets of extended attributes, all interleavings of a listing with changes", "why_tests_cant": "Padding, the offset of the next entry, and where a reply ends depend on the lengths of all names and on the size asked for; a byte too much shifts all later entries.", "anchors": ["lib/fuseq.c:emit_direntonly", "lib/fuseq.c:emit_direntplus", "lib/fuseq.c:filldir", "lib/fuseq.c:diter_prep", "lib/fuseq.c:fillxent", "lib/fuseq.c:xiter_prep", "lib/fuseq.c:do_listxattr", "lib/fuseq.c:do_readdirplus", "lib/xattr.c:xac_emit_by_nodes", "lib/dir.c:dirc_emit"]}
{"id": "C53", "title": "Storage gets exactly the bytes handed to it", "statement": "When the write of an object, or of a batch of neighbouring objects, to the repository's files is reported successful, the files hold exactly these bytes at their places and all other bytes are as before; when a read is reported successful it delivers exactly the bytes stored there; this holds however the kernel cuts the transfers into parts or interrupts them. A failed write touches nothing but its own place.", "quantifier": "all contents and offsets, all sequences of answers of the kernel (short counts, interruptions, errors)", "why_tests_cant": "Local file-systems practically never transfer a part, so tests run each loop once; parts happen when storage fills up or on remote file-systems, and then the damage is silent.", "anchors": ["lib/sys/syscallx.c:silofs_sys_pwriten", "lib/sys/syscallx.c:silofs_sys_preadn", "lib/sys/syscallx.c:silofs_sys_pwritevn", "lib/sys/syscallx.c:do_sys_pwritevn", "lib/sys/syscallx.c:iov_advance", "lib/repo.c:lsegf_writev"]}
{"id": "C54", "title": "The repository is a map from names to contents", "statement": "Storage segments and objects written to a repository under a name are what is read under this name, until written again or removed, and operations on one name have no effect on any other; this does not depend on which files are cached, evicted or opened again in between, nor on which calls of the operating system fail. When storing everything answers success, everything written before is on stable storage. Reads and writes inside an existing segment succeed when the operating system reports no error. A repository opened for reading only is not changed.", "quantifier": "all sequences of operations on all names, all failures of system calls, all sizes and hash functions of the cache", "why_tests_cant": "The cache of open files evicts by recency and hash; which entry an operation meets, with which access mode, depends on the whole history. Lost errors of storing only show after power failure.", "anchors": ["lib/repo.c:silofs_repo_writev_at", "lib/repo.c:silofs_repo_read_at", "lib/repo.c:silofs_repo_fsync_all", "lib/repo.c:repo_htbl_lookup_lsegf", "lib/repo.c:silofs_repo_save_pobj", "lib/repo.c:silofs_repo_save_cobj", "lib/repo.c:silofs_repo_punch_lseg"]}
{"id": "C55", "title": "The in-memory cache loses nothing and serves nothing stale", "statement": "Whatever is loaded, changed, saved, forgotten or evicted in whichever order and under whichever shortage of memory, a request for an object is answered with its current content: the last one written, or else the stored one. There are never two copies of an object in memory. An object which is referred to, open, pinned or has unsaved changes is not evicted; unsaved changes stay queued for the flusher until saved. The queues of unsaved objects and the counters which decide about flushing are exact. An address remembered for a range of the volume is the one in force.", "quantifier": "all sequences of requests to the cache, all hash functions and table sizes, all numbers of failing allocations, all relax flags and memory pressures", "why_tests_cant": "Evictions depend on the whole history of accesses (hit counts, LRU order, hash chains) and on memory pressure; a stale copy shows up only for particular interleavings.", "anchors": ["lib/lcache.c:silofs_lcache_lookup_vni", "lib/lcache.c:silofs_lcache_create_vni", "lib/lcache.c:silofs_lcache_forget_vni", "lib/lcache.c:silofs_lcache_relax", "lib/lcache.c:silofs_lcache_drop", "lib/lcache.c:silofs_lcache_find_uni_by", "lib/hmdq/hmapq.c:silofs_hmapq_promote", "lib/hmdq/dirtyq.c:silofs_dqe_enqueue", "lib/spxmap.c:silofs_uamap_insert"]}
{"id": "C56", "title": "Requests: admission, read-only mounts, locking, and what an answer means", "statement": "Every request to a mounted file-system: (a) when the mount is read-only, or the file-system is the frozen side of a snapshot, no request which changes anything is even begun, and the answer is an error (EROFS if nothing else is wrong); requests which only read are answered exactly as on a writable mount; (b) a caller who is not admitted gets EPERM to everything and nothing is looked at for them; (c) runs under the file-system's lock from start to end, leaves it free, and is carried out at most once; (d) an answer of success means that it was carried out, an error that it was not; (e) never uses an inode which was evicted from memory meanwhile, and keeps no reference to one.", "quantifier": "all requests, all flags of mount and snapshot, all callers and identity maps, all answers of the functions below (any error at any step), all choices of what a shortage of memory evicts at each step", "why_tests_cant": "There are 48 request programs, each of which can fail at each step, crossed with mount flags and evictions; failing reads, flushes and shortages of memory at a chosen step cannot be provoked by tests of the mounted file-system, and a dangling pointer often goes unnoticed.", "anchors": ["lib/opers.c: silofs_fs_*, op_start, op_finish, op_authorize, op_map_creds, op_stage_*", "lib/vstage.c: check_stage_inode, silofs_stage_inode", "lib/super.c: silof_sbi_check_mut_fs", "lib/task.c: silofs_task_lock_fs, silofs_task_unlock_fs, silofs_task_enq_loose", "lib/namei.c: check_clone, silofs_make_namestr_by", "lib/inode.c: check_parent_dir_ii"]}
{"id": "C57", "title": "Memory allocator: no overlap, no outside writes, no leak, no needless refusal", "statement": "The fixed region of memory from which all caches and nodes are allocated: (a) objects held at the same time have no byte in common, lie in the region and are aligned to the power of two which holds them (or to the page); (b) neither requests nor releases nor returning pages to the system change a byte of anything held, and memory asked for as zeroed is zero; (c) a request of 1 byte to 64M is refused only when there are not enough consecutive pages free of held bytes; what was just given back can be had again; (d) when all is given back the region is one free run; the bytes reported in use are exactly the sum of the lengths held; (e) no legitimate call stops the process; releases with a wrong address or length, or twice, do.", "quantifier": "all region sizes, all sequences of requests, refusals, releases and writes of any lengths, flags and contents of the free memory", "why_tests_cant": "Overlap and lost pages depend on the history of splits, merges and slab growth; a test sees single histories, and a write to somebody else's memory is not visible at the interface.", "anchors": ["lib/infra/qalloc.c: silofs_qalloc_malloc, silofs_qalloc_free, qpool_*, slab_*"]}
{"id": "C58", "title": "Space maps: any part of a volume can be brought into use and read back; losses are reported", "statement": "(a) At any time any part of the address range of a volume can be brought into use unless the storage fails; failing or not, blocks in use stay where they are and as they are. (b) Maps which exist are found, for writing as a private copy of the mounted volume, and no block moves or changes by it. (c) Reading an allocated block gives what was stored last; it is never taken for a hole; only a failing storage prevents it. (d) Interrupted growth does not prevent later growth. (e) Lost files or maps are reported and not read as zeros.", "quantifier": "all histories of growth, staging in both modes, allocation, writing, flushing, eviction and forks in any order, all answers of the storage, all offsets", "why_tests_cant": "Depends on the order in which levels of the map are made, written, evicted and copied, on which of many storage calls fails, and on the moment of a crash; tests grow a few megabytes in order on a working storage.", "anchors": ["lib/vstage.c: silofs_require_spmaps_of, silofs_stage_spmaps_of, vstgc_require_*_main_lseg, vstgc_clone_*, vstgc_stage_vnode_at", "lib/ustage.c: silofs_spawn_lseg, silofs_stage_lseg, spawn_spnode_at, stage_spnode_at", "lib/repo.c: repo_do_require_laddr", "lib/file.c: filc_read_from_leaf"]}
{"id": "C59", "title": "Cutting text: every piece lies inside the text, is the right piece, and nothing else is read", "statement": "Configuration files, mount tables and passwords are cut into pieces with one set of functions. For any text: (a) cutting at a character, at a run of separators or at a string yields the part before the first occurrence and the part after it, or the whole text and nothing; (b) stripping yields the longest middle part with no stripped character at either end; (c) comparison, prefix, suffix and ASCII tests answer for exactly the bytes of the text; (d) a copy into a buffer holds these bytes and a terminating zero; (e) no byte outside the text is read.", "quantifier": "all texts of any length at any place in memory, all separators and sets of characters", "why_tests_cant": "Off-by-one reads beyond a text are invisible unless memory happens to be poisoned; the cases with separators at the ends, repeated or missing are too many.", "anchors": ["lib/str/strview.c: silofs_strview_split_chr, silofs_strview_split, silofs_strview_split_str, silofs_strview_strip_any_of, silofs_strview_rsub", "lib/str/strchr.c"]}
{"id": "C60", "title": "File of user and group mappings: read as written, and init makes one which every later command accepts", "statement": "(a) A file of mappings means what its lines say: sections, entries in order, comments and white space allowed anywhere. (b) Mappings which are written to the file are read back unchanged. (c) Users and groups are written in the same form with the same meaning. (d) After init, every later command can read the file, mkfs finds the ids of the user in it, and the mounted file-system maps the user and their groups to themselves. (e) Any user and group of the host can be named. (f) A number with characters after it is refused.", "quantifier": "all files made of any number of well-formed lines, all hosts' databases of users and groups, all mappings, all users", "why_tests_cant": "The test-suite only uses the file init makes, in which both sides of each mapping are equal, so that reversed mappings go unnoticed; large ids and large groups depend on the host.", "anchors": ["cmd/idsconf.c: cmd_fs_ids_load, cmd_fs_ids_save, cmd_fs_ids_add_user, cmd_parse_uids, cmd_parse_gids, cmd_append_user, cmd_sysconf, cmd_fs_ids_assign", "cmd/init.c: cmd_init_setup_fs_ids", "cmd/cmdutils.c: cmd_parse_str_as_long"]}
{"id": "C61", "title": "Large reads and writes: each request gets its own bytes through the pipe, or an error", "statement": "Large reads and writes do not pass through the request buffer but through a pipe which each thread keeps for all its requests. (a) If a large write is reported as done with n bytes, the file's memory holds the first n bytes of that write in order, whether the pieces are filled at once or only gathered first, and no other memory changes. (b) A large read is answered with exactly the bytes of the file's pieces in order, or an error. (c) Bytes of one request never reach another, even if earlier requests failed half-way. (d) Every read and write within the limits which the daemon announces is answered. (e) Failures and interrupted readers do not stop the daemon's threads.", "quantifier": "all sequences of requests of the kernel, all failures of system calls at any point (also with the bytes already taken out of the pipe), all numbers, lengths and places of pieces, all pipe sizes, both modes of writing", "why_tests_cant": "The kernel's calls hardly ever fail in tests, and reads of the longest length need direct I/O at the right position; left-over bytes of an earlier request show up only after such a failure, in some later file.", "anchors": ["lib/infra/pipe.c: silofs_pipe_splice_from_fd, silofs_pipe_vmsplice_from_iov, silofs_pipe_splice_to_fd, silofs_pipe_vmsplice_to_iov, silofs_pipe_copy_to_buf, silofs_pipe_dispose, calc_pipe_size_of", "lib/fuseq.c: fqd_copy_pipe_in, fqd_read_or_splice_request, fq_wri_actor, fq_wri_async_actor, fq_wri_copy_iov, do_write_iter, fq_rdi_actor, fqd_append_data_to_pipe, fq_rdi_reply_read_iov, fuseq_resolve_bufsize, fuseq_calc_max_write"]}
{"id": "C62", "title": "Large writes stored after the lock is released: same effect as ordinary writes", "statement": "In the default mode the data of a large write are moved into the file's blocks after the file-system lock was released, while other requests run. (a) A large write that nothing interferes with has exactly the effect of an ordinary write of the same data. (b) With any other reads and writes meanwhile, of other files or other bytes of the same file (also within the same block), once the data have arrived every read of the range gives them; bytes outside the ranges of the requests never change; file sizes are right at all times. (c) No read ever returns bytes that were never written to the file, whether the data are still on their way, did not arrive, or there was no space for all of them. (d) A range copied to another file does not change there afterwards.", "quantifier": "all interleavings of requests and arrivals, all files and ranges, all layouts (head leaves, tree, shared blocks), all partial arrivals and failures, all choices of the allocator including re-use of blocks", "why_tests_cant": "The window between the two phases is short and its interleavings are many; failures in the second phase hardly ever happen in tests; what a re-used block held before depends on the allocator.", "anchors": ["lib/fuseq.c: do_write_iter, fq_wri_async_actor, fq_wri_copy_iov, fqd_setup_wr_iter", "lib/file.c: filc_call_rw_actor, filc_write_to_leaf_by, filc_pre_write_leaf, filc_write_iter, filc_unshare_leaf_by, silofs_do_rdwr_post", "lib/opers.c: silofs_fs_rdwr_post", "cmd/mount.c: asyncwr"]}
{"id": "C63", "title": "Names and contents together: a file keeps its bytes through all that happens to its names", "statement": "Let programs make, link, rename, remove, open, close, read, write, truncate, punch, and copy files in any order, with the storage failing at any point. (a) What they see is always explained by one simple file system: a table from (directory, name) to objects, open handles, and an array of bytes for each regular file, where each request changes only what it is about. (b) A regular file that can still be reached by a name or a handle has exactly the bytes it was given, whatever happened to its names, to other files or to files with which it shares blocks. (c) Contents are given up only when the last name and the last handle are gone. (d) A new file is empty, although its number and blocks belonged to others before. (e) A request that fails changes nothing, or only names and bytes it was about.", "quantifier": "all sequences of requests, all credentials and modes, all failures of the storage in both the name and the data part of a request, all choices of inode numbers and blocks including re-use", "why_tests_cant": "Tests look at names or at contents; whether dropping the data of a file, re-using its number and sharing blocks may ever touch a file still in use depends on whole histories with failures in between.", "anchors": ["lib/namei.c: try_prune_inode, try_prune_loose_data, drop_unlinked, do_create, do_open, trunc_data, do_rename", "lib/file.c: silofs_drop_reg, silofs_do_write, silofs_do_read, silofs_do_truncate, silofs_do_copy_file_range", "lib/task.c: task_purge_loose"]}
{"id": "C64", "title": "A file-system that was made can be mounted, and what is mounted is what was stored", "statement": "(a) After mkfs reported success its file-system can be mounted, now or after any other use of the repository: other file-systems made, mounts, evictions of cached objects, errors of the disk and lack of memory; the root it finds is the one mkfs wrote. (b) Making a file-system never changes what another one has stored. (c) A mount that succeeds uses a root which lies in the range that the boot record describes. (d) It can be mounted read-only, from a repository that cannot be written. (e) It can be mounted where it was restored from an archive. (f) Removing it removes all that it stored. (g) Damage of the stored objects is detected when they are loaded. (h) The tree that maps logical to physical addresses answers with what was last bound to an address, and with nothing for other addresses, until it is full.", "quantifier": "all repositories, all volume identities, all sequences of mkfs, mount, reopen, flush, close, eviction and drop, all errors and answers of the kernel in each of them; all damaged bytes; all sequences of bindings", "why_tests_cant": "Tests mount what they just made, writable, without failures in between; the tree is exercised with a few ascending keys only.", "anchors": ["lib/bstore.c: silofs_bstore_format, silofs_bstore_reload, silofs_bstore_flush_dirty, silofs_bstore_close", "lib/pcache.c: silofs_pcache_create_cpi, silofs_pcache_relax", "lib/pnodes.c: silofs_bti_expand, silofs_bti_resolve, silofs_bli_extend, silofs_bli_resolve", "lib/repo.c: silofs_repo_create_pseg, silofs_repo_stage_pseg, silofs_repo_save_pobj, silofs_repo_load_pobj", "lib/execlib.c: do_format_fs, do_open_fs"]}
{"id": "C65", "title": "What the file-system reports about itself is true", "statement": "The answers of `silofs show` (version, repository, boot, process, space statistics, attributes), statx and statfs equal the actual state of the mounted file-system and of the file asked about, whatever was served before; they carry nothing else; what statfs reports available or possible can be used; tuning a directory changes exactly what was asked.", "quantifier": "All histories of requests served by a thread before, all states of the file-system, all files and request masks, all histories of the allocator, all mount flags and all tuning requests.", "why_tests_cant": "The bytes left over from earlier requests, the wrapped counters and the combinations of flags depend on histories and values that tests do not enumerate; a test sees only that its own answer looks right.", "anchors": ["lib/namei.c: do_query, do_query_subcmd, fill_query_version, fill_query_repo, fill_query_boot, fill_proc, fill_spstats, do_query_statx, check_tune, do_tune, inewp_set_by_parent", "lib/fuseq.c: do_ioc_query, do_ioc_getflags, do_ioc_tune, stat_to_fuse_statx, fqd_init_op_args", "lib/inode.c: ii_update_statx, silofs_ii_stat_of, silofs_ii_update_iflags", "lib/stats.c: silofs_sti_fill_statvfs, silofs_spacestats_export, silofs_spacestats_import, silofs_sti_collect_stats", "cmd/show.c: cmd_show_version, cmd_show_repo, cmd_show_boot, cmd_show_proc, cmd_show_spstats, cmd_show_statx, msflags_str", "include/silofs/ioctls.h"]}
{"id": "C66", "title": "Listing of mounts and refusal to remove a mounted file-system", "statement": "`silofs lsmnt` lists the directories of all mounted silofs file-systems and of no others; its long form shows for each its repository, name, boot address and uuid; `silofs rmfs` refuses with EBUSY to remove a file-system which is mounted, and refuses no other for that reason.", "quantifier": "All lists of mounts the kernel can report (any number, any directories, any types and options), all ways its answers are cut into reads, all answers of open, ioctl and stat.", "why_tests_cant": "Tests see the mounts of one machine; which other lines, directory names and sizes of the list occur elsewhere is not enumerable, and the refusal depends on what every mounted file-system answers.", "anchors": ["cmd/cmdutils.c: cmd_readfile, cmd_read_proc_mountinfo, cmd_parse_field, cmd_parse_mountinfo_line, cmd_isfusesilofs_mountinfo_line, cmd_new_mntinfo, cmd_parse_mountinfo_into, cmd_parse_mountinfo", "cmd/lsmnt.c: cmd_lsmnt_short, cmd_lsmnt_long, cmd_lsmnt_execute", "cmd/rmfs.c: cmd_rmfs_check_nomnt_at, cmd_rmfs_check_nomnt"]}
{"id": "C67", "title": "The password is what the user gave", "statement": "However a password is given (typed, from a file, from a pipe, by -p or by a mount sub-option), the file-system is keyed by exactly that text without the blanks around it; a text which is no legal password is refused and never cut; when asked twice, two different answers are refused; sub-options of mount which exclude each other count as the last given.", "quantifier": "All bytes of all lengths given by any of the ways, all ways a terminal or pipe may deliver them, all lists of sub-options.", "why_tests_cant": "A password which is silently cut or changed still makes and mounts a file-system on the same machine in the same way; the loss shows only when it is given in another way, and all texts and deliveries cannot be tried.", "anchors": ["cmd/getpass.c: parse_dup_password, read_password_buf_from_fd, read_password_from_file, read_password_from_tty, getpass_from, do_getpass, cmd_duppass", "cmd/optargs.c: cmd_optargs_getpass", "cmd/mount.c: cmd_mount_getsubopts", "lib/crypt/passwd.c: silofs_password_setup, silofs_password_check", "lib/crypt/cipher.c: silofs_derive_ivkey"]}
{"id": "C68", "title": "Write-back by several threads at once keeps order and loses nothing", "statement": "However the threads which serve requests interleave, every change which was queued for writing is written exactly once and in the order in which the changes were made; a request which waits for its data (fsync, syncfs) returns success only when everything queued before is in storage; a request ends only after its own changes were written, and gets the error when that failed; data which is not written yet is not dropped from memory; no two threads wait for each other.", "quantifier": "All numbers of threads, all interleavings of their steps, all contents of the queue and all sequences of failing writes.", "why_tests_cant": "The interleavings of several threads cannot be enumerated, a wrong order shows only when the process dies or the cache drops a block at the wrong moment, and failing writes are not under the control of a test.", "anchors": ["lib/task.c: silofs_submitq_enqueue, submitq_get_sqe, submitq_apply_one, submitq_apply, silofs_submitq_new_sqe, silofs_submitq_del_sqe, silofs_task_update_by, task_apply, silofs_task_submit", "lib/flush.c: flusher_enqueue_dset, flusher_submit_txq, flusher_discard_txq, flusher_complete_commits", "lib/opers.c: op_finish", "lib/fuseq.c: do_exec_op, task_submit"]}
{"id": "C69", "title": "The linked lists of the cache never break", "statement": "Objects in memory are linked into hash chains, a least-recently-used queue and queues of unsaved changes by pointers within the objects. Whatever is asked of the cache: following the pointers from any head meets exactly the objects which belong to that list, each once, forwards and backwards, and comes back to the head; the counts kept beside the lists are right; no null pointer is followed and no list head is taken for an object; so every answer of the cache is the one it would give with plain sequences, and the contents it gives out are the current ones.", "quantifier": "All sequences of requests to the cache (look up, load, change, save, forget, open, pin, relax, drop, shortage of memory), all keys, all hash functions, all table sizes; for the lists by themselves all numbers of lists in one memory and all sequences of calls.", "why_tests_cant": "A wrong link shows only when a later walk passes it; the number of interleaved insertions and removals of objects which are in three lists at once is unbounded.", "anchors": ["lib/infra/list.c: silofs_list_*, silofs_listq_*", "include/silofs/infra/list.h: silofs_list_head_insert, silofs_list_head_remove", "lib/hmdq/hmapq.c: silofs_hmapq_store, hmapq_find, silofs_hmapq_promote, silofs_hmapq_remove, silofs_hmapq_riterate", "lib/hmdq/dirtyq.c: silofs_dqe_enqueue, silofs_dqe_dequeue", "lib/lcache.c: lcache_evict_vni, lcache_forget_vni, silofs_lcache_relax, silofs_lcache_drop"]}
{"id": "C70", "title": "Sizes, numbers and paths on the command line mean what they say", "statement": "A size such as \"2.5G\" given to mkfs is the number it denotes, rounded down, with units as powers of 1024; the file-system has this size rounded down to a multiple of 16M, which is also what statfs tells; a size out of bounds, with something behind it, with a minus sign, or too large makes no file-system. A number is a decimal number. A switch is 0, 1, true or false. A path of a file-system is split at the last slash, and joining the parts gives the path back.", "quantifier": "All texts; all sizes with any number of digits before and after the point and any unit; all lists of repeated options.", "why_tests_cant": "Texts are unbounded, and rounding of fractions fails, if it does, only at rare combinations of digits.", "anchors": ["cmd/cmdutils.c: cmd_parse_str_as_size, cmd_parse_str_as_u32v, cmd_parse_str_as_bool, cmd_split_path, cmd_joinpath_safe", "cmd/mkfs.c: cmd_mkfs_parse_optargs, cmd_mkfs_setup_fs_args", "lib/execlib.c: check_fs_capacity, calc_aligned_fs_cap"]}
{"id": "C71", "title": "A mount has the options the user asked for, and they are in force", "statement": "Options of mount may be given as letters, several letters in one word, or names, with values in the same or in the next word, in any order, with the file-system and the mount-point anywhere between. The last of options which exclude each other counts; what is not mentioned has its default. With \"ro\" nothing can be changed; with \"nodev\" no device file can be made; \"nosuid\" and \"noexec\" reach the kernel; nothing is asked of the mount service which it refuses; other users are let in unless this was denied; access lists, write-back, asynchronous writing and splicing are on or off as asked. An option which does not exist, or too few or too many arguments, end the command. Each option the help text offers works.", "quantifier": "All command lines of any length composed of the options in any way of writing and any order; all texts of passwords, values and arguments; all unknown options at any place.", "why_tests_cant": "The number of combinations, orders and ways of writing is unbounded; the path from a word to a check within the file-system goes through four layers.", "anchors": ["cmd/optargs.c: cmd_optargs_init, cmd_optargs_parse, cmd_optargs_getarg, cmd_optargs_endargs", "cmd/mount.c: cmd_mount_parse_optargs, cmd_mount_getsubopts, cmd_mount_mkdefaults, cmd_mount_help_desc", "lib/fsenv.c: fsenv_update_mntflags, fsenv_update_ctlflags", "lib/super.c: silof_sbi_check_mut_fs", "lib/namei.c: check_mknod", "lib/opers.c: op_authorize", "lib/xattr.c: xac_allow_acl"]}
{"id": "C72", "title": "A mounted file-system serves until it is unmounted or told to stop, and then finishes, stores everything and ends", "statement": "Requests are executed only after the kernel and the daemon have agreed on the protocol. When the file-system is unmounted, or the daemon gets a signal to stop, the requests under way are finished, no new ones are executed, everything which was changed is stored, and the daemon ends; it does so in bounded time under any schedule, whatever errors there were, and however often it is told. Background work goes on for as long as the file-system is mounted.", "quantifier": "All numbers of threads; all interleavings of their steps; all requests, errors and signals at any time.", "why_tests_cant": "Interleavings are unbounded in number; the failing ones need an error or a signal at one particular moment, and then show only as something which never happens.", "anchors": ["lib/fuseq.c: fqd_exec_loop, fqd_exec_once, fqd_post_exec_once, fqd_allowed_exec, fqd_has_exec_mode, fqw_exec_loop, fuseq_start_exec_threads, fuseq_suspend_while_active, fuseq_finish_dispatchers, fuseq_finish_workers, do_init, do_destroy", "lib/execlib.c: silofs_halt_fs, silofs_close_fs, do_close_fs", "cmd/mount.c: cmd_mount_exec_phase2, cmd_mount_halt_by_signal", "cmd/signals.c: sigaction_halt_handler"]}
{"id": "C73", "title": "What the daemon promises the kernel when a mount starts, it keeps", "statement": "The largest read and write, the number of pages and the capabilities which the daemon announces are such that every request the kernel may then send is received whole, is neither cut nor refused for its size, and its answer fits; no capability is used which the kernel did not offer; each promised capability is provided. A mount is possible on every system on which the program runs.", "quantifier": "All supported page sizes; all limits of pipe sizes, readable or not; all initial sizes and errors of pipes; all offers of the kernel and its limits; all requests within them.", "why_tests_cant": "Tests run on one machine with one page size and the default limits; the sizes that fail are those of other systems.", "anchors": ["lib/fuseq.c: silofs_fuseq_update, fuseq_update_conn_info, fuseq_resolve_bufsize, fuseq_calc_max_write, fuseq_update_dispatchers, do_init, do_init_capabilities, fqd_reply_init_ok, fqd_check_inhdr, fqd_check_pipe_pre", "lib/infra/pipe.c: calc_pipe_size_of, silofs_piper_try_grow", "lib/file.c: filc_check_file_io", "lib/execlib.c: check_system_page_size", "lib/namei.c: do_lookup"]}
{"id": "C74", "title": "A command is set up completely or refused without a trace, and taken down completely", "statement": "When the environment of a file-system is created, either everything the command needs is in place, or the call fails and everything acquired before is released; deleting an environment releases everything that creating it acquired; nothing is released twice, before it was acquired, or to an allocator that is gone; no failure of the system crashes the program. The memory used is within the limits of machine and process and is what was asked for when it lies within them.", "quantifier": "All subsets of system calls, allocations and library calls that are denied; all numbers of mapped users and groups; all numbers of processors; all sizes of memory and limits.", "why_tests_cant": "Tests run where all these calls succeed; there are far too many patterns of denials to inject.", "anchors": ["lib/execlib.c: silofs_new_fsenv, silofs_del_fsenv, fs_ctx_setup, fs_ctx_destroy, calc_mem_size", "lib/infra/qalloc.c: silofs_qalloc_init, silofs_qalloc_fini, memfd_setup, silofs_calloc_init", "lib/fsenv.c: silofs_fsenv_init, silofs_fsenv_fini", "lib/repo.c: silofs_repo_init, silofs_repo_fini", "lib/lcache.c: silofs_lcache_init", "lib/idsmap.c: silofs_idsmap_init", "lib/fuseq.c: silofs_fuseq_new, silofs_fuseq_del, fqd_init, fqd_fini", "lib/crypt/mdigest.c: silofs_mdigest_init"]}
{"id": "C75", "title": "Commands leave a repository in order wherever they stop and whatever else runs", "statement": "At every moment, whatever commands run on a repository at the same time and wherever any of them fails or is killed: every name opens what it stands for; a command changes no name and no content but those it is for, and only under its lock; when it has ended it holds nothing; and when it reports success, or failure, that is what happened.", "quantifier": "All sets of commands on one repository, all interleavings of their steps, all patterns of failing steps and kills, all repositories to begin with.", "why_tests_cant": "A test runs one command after the other and kills none; interleavings and points of failure are far too many.", "anchors": ["cmd/mkfs.c: cmd_execute_mkfs", "cmd/mount.c: cmd_execute_mount", "cmd/fsck.c: cmd_execute_fsck", "cmd/rmfs.c: cmd_execute_rmfs", "cmd/archive.c: cmd_execute_archive", "cmd/restore.c: cmd_execute_restore, cmd_restore_release_lockfile", "cmd/snap.c: cmd_execute_snap, cmd_snap_offline", "cmd/bootref.c: cmd_save_bref_file, cmd_bootref_load, cmd_bootref_unlink", "cmd/locks.c: cmd_lock_fs, cmd_unlock_fs", "lib/execlib.c: do_format_fs, do_open_fs, do_close_fs, exec_clone_fs, silofs_unref_fs"]}
{"id": "C76", "title": "Mount and umount tell what happened", "statement": "When `silofs mount` ends with success, the file-system is mounted at the directory; when it ends with failure, it is not and will not be. When `silofs umount` ends with success, the file-system is detached, its server has ended and everything is stored; when it ends with failure, nothing has changed. Neither touches a directory it was not asked for, and both end.", "quantifier": "All states of the system at all times, all delays and failures of the daemon, the server, the mount service and the connection to it, all arguments and options.", "why_tests_cant": "What matters is when things happen: a test sees one timing of daemon and command, on an idle machine.", "anchors": ["cmd/mount.c: cmd_mount_prepare_mntpoint, cmd_mount_finish_parent, cmd_mount_wait_child_pid, cmd_mount_start_daemon, cmd_execute_mount", "cmd/umount.c: cmd_umount_prepare, cmd_umount_send_recv, cmd_umount_probe_post, cmd_umount_wait_nopid, cmd_execute_umount", "cmd/cmdutils.c: cmd_check_mntdir, cmd_check_emptydir, cmd_check_mntsrv_perm, cmd_stat_dir, cmd_fork_daemon", "cmd/locks.c: cmd_lockfile_wait_noent", "lib/mntsvc.c: silofs_mntrpc_mount, silofs_mntrpc_umount, check_mntpoint"]}
{"id": "C77", "title": "The mount service is there for everyone", "statement": "Whatever any client of the mount service sends or fails to send, in any order with others, the service goes on serving all others: each gets the answer to their own request, with their own ids, in the order of their coming; and it stops when told to.", "quantifier": "All sequences of connections, of any users, with any bytes and descriptors, in any interleaving with the turns of the service and with signals; all rules, limits and failures of system calls.", "why_tests_cant": "Tests talk to the service one after the other and politely; what counts are the sequences nobody meant to send.", "anchors": ["lib/mntsvc.c: silofs_mse_exec, silofs_mse_exec_one, mntsvc_serve_request, do_recvmsg, do_unpack_fd, mntmsg_recv2, close_fd, mntsvc_accept_from, mntsvc_send_response", "lib/infra/socket.c: silofs_cmsg_unpack_fd, silofs_socket_getpeercred", "mntd/mountd.c: mountd_sigaction_halt_handler"]}
{"id": "C78", "title": "A repository is made whole or not at all", "statement": "Whatever goes wrong while a repository is made, at whatever system call, and even if the program is killed: what can be opened afterwards is a whole repository, nothing that was in the directory before is touched, and the same command can be repeated until it succeeds. When it says that it succeeded, the repository is whole, opens, and has its ids file.", "quantifier": "All contents of the host directory and permissions, all umasks, users, all sequences of attempts by the command and by the library, with all combinations of failures and kills at each system call.", "why_tests_cant": "The making of a repository has hundreds of system calls; tests see the run in which all of them succeed.", "anchors": ["lib/repo.c: silofs_repo_format, silofs_repo_open, repo_create_skel, repo_require_skel, repo_format_meta, repo_require_meta, repo_create_skel_subdir, repo_create_skel_subfile", "lib/bstore.c: silofs_bstore_format", "cmd/init.c: cmd_init_prepare, cmd_execute_init", "cmd/idsconf.c: cmd_fs_ids_save", "cmd/cmdutils.c: cmd_check_emptydir"]}
{"id": "C79", "title": "Checking and listing a file-system", "statement": "fsck reports success exactly when the file-system it checks is intact, and changes nothing in the repository; view prints the addresses of everything that belongs to the file-system and of nothing else, and fails if it cannot.", "quantifier": "all repositories, all contents of space maps, all sets of lost or damaged segments, all address spaces, all capacities of the output", "why_tests_cant": "which losses a check finds is a statement over all ways a repository can be damaged and all shapes of the tree of space maps; tests run it on sound file-systems", "anchors": ["cmd/fsck.c:cmd_fsck_execute", "cmd/view.c:cmd_view_cb", "lib/inspect.c:silofs_walk_inspect_fs", "lib/inspect.c:inspc_walk_fs", "lib/walk.c:silofs_walk_space_tree", "lib/ustage.c:require_lseg", "lib/namei.c:silofs_do_inspect"]}
{"id": "C80", "title": "Inode number and generation stand for one file for ever", "statement": "Whenever the kernel is told of a file by an inode number and a generation, these stand for that file and no other, before and after, also when inode numbers are used again, across snapshots, mounts and crashes; and the same file is always told by the same pair.", "quantifier": "all sequences of making, removing and looking up files, of snapshots, syncs, mounts and crashes, with any choice of free inode numbers, any contents of inodes, and anything a crash can leave", "why_tests_cant": "inode numbers come back only after many operations, and what a handle kept by a client stands for after a crash is a question over all histories", "anchors": ["lib/vstage.c:silofs_spawn_inode", "lib/vstage.c:setup_uniqe_generation", "lib/stats.c:silofs_sti_next_generation", "lib/stats.c:silofs_sti_renew_stats", "lib/stats.c:spst_make_clone", "lib/inode.c:silofs_ii_stat_of", "lib/fuseq.c:fill_fuse_entry_out", "lib/fsenv.c:sbi_make_clone"]}
{"id": "C81", "title": "The super block shows the volume as it is and is accepted when loaded again", "statement": "After a volume was formatted and then used in any way - the roots of its trees of maps and its main segments bound for the kinds of objects, objects counted in and out, generations drawn, flags set, snapshots taken - its super block returns for every kind the root and key vector bound last and no other, the main segment, all counters, capacity, generation, flags, and the identities; and it passes the checks made when a file-system is loaded. A snapshot shows the same trees under the same vectors, keeps the identity of the file-system, has its own volume identity, names the volume it was taken of, has none of the segments that volume writes its maps to, and accounts for the same space plus its own super block. No segment may be written to by both. Export and deletion start from exactly the roots bound. Of any bytes that pass the checks, each root returned is a node of the top level of the space maps and the sums of counters do not overflow.", "quantifier": "all sequences of uses of a volume after format with counters inside the range the loader accepts; all addresses and vectors; for the checks, all contents of the block", "why_tests_cant": "The block is some hundred fields written in place by unrelated code paths; that no write spoils another field, for any order of writes, kinds and values, and that no legal state is refused at the next mount (for example negative counters after a snapshot), is a statement about all histories; a test sees a few, and a wrong offset for one rarely used kind is invisible until that kind is used together with its neighbour.", "anchors": ["lib/super.c: sb_init, sb_sproot_by, sb_mainlsid_by, sb_rootiv_by, silofs_sbi_bind_child, silofs_sbi_resolve_child, silofs_sbi_main_lseg, silofs_sbi_clone_from, silofs_verify_super_block", "lib/stats.c: spg_update_take, silofs_sti_renew_stats, silofs_verify_space_stats", "lib/fsenv.c: silofs_fsenv_format_super, sbi_make_clone", "include/silofs/defs.h: silofs_super_block"]}
