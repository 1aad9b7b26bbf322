import Verif.Dap.Model

/-!
# The layouts of the DAP messages

`_layout` of every message class of `pydecnet/decnet/dap_packets.py`, in order.
-/

namespace Verif.Dap

open Verif.Fields

/-- `DapBase._layout`, dap_packets.py 196-196. -/
def dapBaseRows : List Row :=
  [⟨.always, .fld "type" (.b 1)⟩]

/-- `DapHeader._layout`, dap_packets.py 275-285. -/
def dapHeaderRows : List Row :=
  [⟨.always, .bmex 5
     [⟨"m_streamid", 0, 1⟩,
      ⟨"m_length", 1, 1⟩,
      ⟨"m_len256", 2, 1⟩,
      ⟨"m_bitcnt", 3, 1⟩,
      ⟨"m_syspec", 5, 1⟩,
      ⟨"m_seg", 6, 1⟩]⟩,
   ⟨.when "m_streamid", .fld "streamid" (.b 1)⟩,
   ⟨.when "m_length", .fld "length" (.b 1)⟩,
   ⟨.when "m_len256", .fld "len256" (.b 1)⟩,
   ⟨.when "m_bitcnt", .fld "bitcnt" (.b 1)⟩]

/-- `Config._layout`, dap_packets.py 291-354. -/
def configRows : List Row :=
  [⟨.always, .fld "bufsiz" (.b 2)⟩,
   ⟨.always, .fld "ostype" (.b 1)⟩,
   ⟨.always, .fld "filesys" (.b 1)⟩,
   ⟨.always, .fld "version" .version⟩,
   ⟨.always, .bmex 12
     [⟨"prealloc", 0, 1⟩,
      ⟨"fo_seq", 1, 1⟩,
      ⟨"fo_rel", 2, 1⟩,
      ⟨"seq_xfer", 5, 1⟩,
      ⟨"random_rec", 6, 1⟩,
      ⟨"random_blk", 7, 1⟩,
      ⟨"random_key", 8, 1⟩,
      ⟨"random_rfa", 10, 1⟩,
      ⟨"isam", 11, 1⟩,
      ⟨"mode_switch", 12, 1⟩,
      ⟨"append", 13, 1⟩,
      ⟨"submit", 14, 1⟩,
      ⟨"streams", 16, 1⟩,
      ⟨"blocking", 18, 1⟩,
      ⟨"unres_blocking", 19, 1⟩,
      ⟨"len2", 20, 1⟩,
      ⟨"cksum", 21, 1⟩,
      ⟨"key_xa", 22, 1⟩,
      ⟨"alloc_xa", 23, 1⟩,
      ⟨"sum_xa", 24, 1⟩,
      ⟨"dir", 25, 1⟩,
      ⟨"dattim_xa", 26, 1⟩,
      ⟨"fprot_xa", 27, 1⟩,
      ⟨"spool", 29, 1⟩,
      ⟨"submit_op", 30, 1⟩,
      ⟨"delete", 31, 1⟩,
      ⟨"seq_ra", 33, 1⟩,
      ⟨"bitcnt", 35, 1⟩,
      ⟨"warn", 36, 1⟩,
      ⟨"rename", 37, 1⟩,
      ⟨"glob", 38, 1⟩,
      ⟨"name", 40, 1⟩,
      ⟨"seg", 41, 1⟩,
      ⟨"close_att", 42, 1⟩,
      ⟨"close_tim", 43, 1⟩,
      ⟨"close_pro", 44, 1⟩,
      ⟨"close_nam", 45, 1⟩,
      ⟨"cre_retattr", 46, 1⟩,
      ⟨"name3", 47, 1⟩,
      ⟨"rename_att", 48, 1⟩,
      ⟨"rename_tim", 49, 1⟩,
      ⟨"rename_pro", 50, 1⟩,
      ⟨"blkcnt", 51, 1⟩,
      ⟨"octal_versions", 52, 1⟩,
      ⟨"coll_table", 53, 1⟩,
      ⟨"stream_access_stm", 54, 1⟩,
      ⟨"stream_access_any", 55, 1⟩,
      ⟨"block_access", 56, 1⟩,
      ⟨"access_switch", 57, 1⟩,
      ⟨"attribute_storage", 58, 1⟩,
      ⟨"non_8bit_data", 59, 1⟩,
      ⟨"stm_default", 60, 1⟩,
      ⟨"isam_prolog_1", 61, 1⟩,
      ⟨"isam_prolog_2", 62, 1⟩,
      ⟨"isam_prolog_3", 63, 1⟩,
      ⟨"extended_syscap", 72, 1⟩]⟩]

/-- `Attrib._layout`, dap_packets.py 359-442. -/
def attribRows : List Row :=
  [⟨.always, .bmex 6
     [⟨"m_datatype", 0, 1⟩,
      ⟨"m_org", 1, 1⟩,
      ⟨"m_rfm", 2, 1⟩,
      ⟨"m_rat", 3, 1⟩,
      ⟨"m_bls", 4, 1⟩,
      ⟨"m_mrs", 5, 1⟩,
      ⟨"m_alq", 6, 1⟩,
      ⟨"m_bks", 7, 1⟩,
      ⟨"m_fsz", 8, 1⟩,
      ⟨"m_mrn", 9, 1⟩,
      ⟨"m_runsys", 10, 1⟩,
      ⟨"m_deq", 11, 1⟩,
      ⟨"m_fop", 12, 1⟩,
      ⟨"m_bsz", 13, 1⟩,
      ⟨"m_dev", 14, 1⟩,
      ⟨"m_lrl", 16, 1⟩,
      ⟨"m_hbk", 17, 1⟩,
      ⟨"m_ebk", 18, 1⟩,
      ⟨"m_ffb", 19, 1⟩,
      ⟨"m_sbn", 20, 1⟩]⟩,
   ⟨.whenElse "m_datatype" [2], .bmex 2
     [⟨"ascii", 0, 1⟩,
      ⟨"image", 1, 1⟩,
      ⟨"compressed", 3, 1⟩,
      ⟨"executable", 4, 1⟩,
      ⟨"privileged", 5, 1⟩,
      ⟨"sensitive", 7, 1⟩]⟩,
   ⟨.when "m_org", .fld "org" (.b 1)⟩,
   ⟨.whenElse "m_rfm" [1], .fld "rfm" (.b 1)⟩,
   ⟨.when "m_rat", .bmex 3
     [⟨"fb_ftn", 0, 1⟩,
      ⟨"fb_cr", 1, 1⟩,
      ⟨"fb_prn", 2, 1⟩,
      ⟨"fb_blk", 3, 1⟩,
      ⟨"fb_emb", 4, 1⟩,
      ⟨"fb_lsa", 6, 1⟩,
      ⟨"fb_macy11", 7, 1⟩]⟩,
   ⟨.whenElse "m_bls" [0, 2], .fld "bls" (.b 2)⟩,
   ⟨.when "m_mrs", .fld "mrs" (.b 2)⟩,
   ⟨.when "m_alq", .fld "alq" (.iint 5)⟩,
   ⟨.when "m_bks", .fld "bks" (.b 1)⟩,
   ⟨.when "m_fsz", .fld "fsz" (.b 1)⟩,
   ⟨.when "m_mrn", .fld "mrn" (.iint 5)⟩,
   ⟨.when "m_runsys", .fld "runsys" (.a 40)⟩,
   ⟨.when "m_deq", .fld "deq" (.b 2)⟩,
   ⟨.when "m_fop", .bmex 6
     [⟨"fb_rwo", 0, 1⟩,
      ⟨"fb_rwc", 1, 1⟩,
      ⟨"fb_pos", 3, 1⟩,
      ⟨"fb_dlk", 4, 1⟩,
      ⟨"fb_locked", 6, 1⟩,
      ⟨"fb_ctg", 7, 1⟩,
      ⟨"fb_sup", 8, 1⟩,
      ⟨"fb_nef", 9, 1⟩,
      ⟨"fb_tmp", 10, 1⟩,
      ⟨"fb_mkd", 11, 1⟩,
      ⟨"fb_dmo", 13, 1⟩,
      ⟨"fb_wck", 14, 1⟩,
      ⟨"fb_rck", 15, 1⟩,
      ⟨"fb_cif", 16, 1⟩,
      ⟨"fb_sqo", 18, 1⟩,
      ⟨"fb_mxv", 19, 1⟩,
      ⟨"fb_spl", 20, 1⟩,
      ⟨"fb_scf", 21, 1⟩,
      ⟨"fb_dlt", 22, 1⟩,
      ⟨"fb_cbt", 23, 1⟩,
      ⟨"fb_dwf", 25, 1⟩,
      ⟨"fb_tef", 26, 1⟩,
      ⟨"fb_opf", 27, 1⟩]⟩,
   ⟨.whenElse "m_bsz" [8], .fld "bsz" (.b 1)⟩,
   ⟨.when "m_dev", .bmex 6
     [⟨"fb_rec", 0, 1⟩,
      ⟨"fb_ccl", 1, 1⟩,
      ⟨"fb_trm", 2, 1⟩,
      ⟨"fb_mdi", 3, 1⟩,
      ⟨"fb_sdi", 4, 1⟩,
      ⟨"fb_sqd", 5, 1⟩,
      ⟨"fb_null", 6, 1⟩,
      ⟨"fb_fod", 7, 1⟩,
      ⟨"fb_share", 8, 1⟩,
      ⟨"fb_spl", 9, 1⟩,
      ⟨"fb_mnt", 10, 1⟩,
      ⟨"fb_dmt", 11, 1⟩,
      ⟨"fb_all", 12, 1⟩,
      ⟨"fb_idv", 13, 1⟩,
      ⟨"fb_odv", 14, 1⟩,
      ⟨"fb_swl", 15, 1⟩,
      ⟨"fb_avl", 16, 1⟩,
      ⟨"fb_elg", 17, 1⟩,
      ⟨"fb_mbx", 18, 1⟩,
      ⟨"fb_rtm", 19, 1⟩,
      ⟨"fb_rad", 20, 1⟩,
      ⟨"fb_rdchk", 21, 1⟩,
      ⟨"fb_wrchk", 22, 1⟩,
      ⟨"fb_foreign", 23, 1⟩,
      ⟨"fb_network", 24, 1⟩,
      ⟨"fb_generic", 25, 1⟩]⟩,
   ⟨.when "m_lrl", .fld "lrl" (.b 2)⟩,
   ⟨.when "m_hbk", .fld "hbk" (.iint 5)⟩,
   ⟨.when "m_ebk", .fld "ebk" (.iint 5)⟩,
   ⟨.when "m_ffb", .fld "ffb" (.b 2)⟩,
   ⟨.when "m_sbn", .fld "sbn" (.iint 5)⟩]

/-- `Access._layout`, dap_packets.py 458-490. -/
def accessRows : List Row :=
  [⟨.always, .fld "accfunc" (.b 1)⟩,
   ⟨.always, .bmex 5
     [⟨"err_nonfatal", 0, 1⟩,
      ⟨"checksum", 3, 1⟩,
      ⟨"go_nogo", 4, 1⟩]⟩,
   ⟨.always, .fld "filespec" (.a 255)⟩,
   ⟨.orElse [2], .bmex 3
     [⟨"fb_put", 0, 1⟩,
      ⟨"fb_get", 1, 1⟩,
      ⟨"fb_del", 2, 1⟩,
      ⟨"fb_upd", 3, 1⟩,
      ⟨"fb_trn", 4, 1⟩,
      ⟨"fb_bio", 5, 1⟩,
      ⟨"fb_bro", 6, 1⟩]⟩,
   ⟨.orElse [2], .bmex 3
     [⟨"shr_fb_put", 0, 1⟩,
      ⟨"shr_fb_get", 1, 1⟩,
      ⟨"shr_fb_del", 2, 1⟩,
      ⟨"shr_fb_upd", 3, 1⟩,
      ⟨"fb_mse", 4, 1⟩,
      ⟨"fb_upi", 5, 1⟩,
      ⟨"shr_fb_nil", 6, 1⟩]⟩,
   ⟨.always, .bmex 4
     [⟨"main", 0, 1⟩,
      ⟨"keydef", 1, 1⟩,
      ⟨"alloc", 2, 1⟩,
      ⟨"summary", 3, 1⟩,
      ⟨"date", 4, 1⟩,
      ⟨"fprot", 5, 1⟩,
      ⟨"name", 8, 1⟩,
      ⟨"name3", 9, 1⟩]⟩]

/-- `Control._layout`, dap_packets.py 502-524. -/
def controlRows : List Row :=
  [⟨.orElse [1], .fld "ctlfunc" (.b 1)⟩,
   ⟨.always, .bmex 4
     [⟨"m_rac", 0, 1⟩,
      ⟨"m_key", 1, 1⟩,
      ⟨"m_krf", 2, 1⟩,
      ⟨"m_rop", 3, 1⟩]⟩,
   ⟨.when "m_rac", .fld "rac" (.b 1)⟩,
   ⟨.when "m_key", .fld "key" (.i 255)⟩,
   ⟨.when "m_krf", .fld "krf" (.b 1)⟩,
   ⟨.when "m_rop", .bmex 6
     [⟨"rb_eof", 0, 1⟩,
      ⟨"rb_fdl", 1, 1⟩,
      ⟨"rb_uif", 2, 1⟩,
      ⟨"rb_loa", 4, 1⟩,
      ⟨"rb_ulk", 5, 1⟩,
      ⟨"rb_tpt", 6, 1⟩,
      ⟨"rb_rah", 7, 1⟩,
      ⟨"rb_wbh", 8, 1⟩,
      ⟨"rb_kge", 9, 1⟩,
      ⟨"rb_kgt", 10, 1⟩,
      ⟨"rb_nlk", 11, 1⟩,
      ⟨"rb_rlk", 12, 1⟩,
      ⟨"rb_bio", 13, 1⟩]⟩]

/-- `Continue._layout`, dap_packets.py 548-548. -/
def continueRows : List Row :=
  [⟨.always, .fld "confunc" (.b 1)⟩]

/-- `Ack._layout`, dap_packets.py 556-557.  (It has none.) -/
def ackRows : List Row :=
  []

/-- `AccComplete._layout`, dap_packets.py 560-562. -/
def accCompleteRows : List Row :=
  [⟨.always, .fld "cmpfunc" (.b 1)⟩,
   ⟨.always, .bmex 6
     [⟨"fb_rwo", 0, 1⟩,
      ⟨"fb_rwc", 1, 1⟩,
      ⟨"fb_pos", 3, 1⟩,
      ⟨"fb_dlk", 4, 1⟩,
      ⟨"fb_locked", 6, 1⟩,
      ⟨"fb_ctg", 7, 1⟩,
      ⟨"fb_sup", 8, 1⟩,
      ⟨"fb_nef", 9, 1⟩,
      ⟨"fb_tmp", 10, 1⟩,
      ⟨"fb_mkd", 11, 1⟩,
      ⟨"fb_dmo", 13, 1⟩,
      ⟨"fb_wck", 14, 1⟩,
      ⟨"fb_rck", 15, 1⟩,
      ⟨"fb_cif", 16, 1⟩,
      ⟨"fb_sqo", 18, 1⟩,
      ⟨"fb_mxv", 19, 1⟩,
      ⟨"fb_spl", 20, 1⟩,
      ⟨"fb_scf", 21, 1⟩,
      ⟨"fb_dlt", 22, 1⟩,
      ⟨"fb_cbt", 23, 1⟩,
      ⟨"fb_dwf", 25, 1⟩,
      ⟨"fb_tef", 26, 1⟩,
      ⟨"fb_opf", 27, 1⟩]⟩,
   ⟨.always, .fld "check" (.b 2)⟩]

/-- `Data._layout`, dap_packets.py 572-573. -/
def dataRows : List Row :=
  [⟨.always, .fld "recnum" (.iint 8)⟩,
   ⟨.orElse [], .fld "payload" .payload⟩]

/-- `Status._layout`, dap_packets.py 577-582. -/
def statusRows : List Row :=
  [⟨.always, .bm
     [⟨"miccode", 0, 12⟩,
      ⟨"maccode", 12, 4⟩]⟩,
   ⟨.orElse [], .fld "payload" .payload⟩]

/-- `Date._layout`, dap_packets.py 1117-1125. -/
def dateRows : List Row :=
  [⟨.always, .bmex 6
     [⟨"m_cdt", 0, 1⟩,
      ⟨"m_rdt", 1, 1⟩,
      ⟨"m_edt", 2, 1⟩,
      ⟨"m_rvn", 3, 1⟩]⟩,
   ⟨.when "m_cdt", .fld "cdt" (.av 18)⟩,
   ⟨.when "m_rdt", .fld "rdt" (.av 18)⟩,
   ⟨.when "m_edt", .fld "edt" (.av 18)⟩,
   ⟨.when "m_rvn", .fld "rvn" (.b 2)⟩]

/-- `Prot._layout`, dap_packets.py 1148-1199. -/
def protRows : List Row :=
  [⟨.always, .bmex 6
     [⟨"m_owner", 0, 1⟩,
      ⟨"m_protsys", 1, 1⟩,
      ⟨"m_protown", 2, 1⟩,
      ⟨"m_protgrp", 3, 1⟩,
      ⟨"m_protwld", 4, 1⟩]⟩,
   ⟨.when "m_owner", .fld "owner" (.a 40)⟩,
   ⟨.when "m_protsys", .bmex 3
     [⟨"s_noread", 0, 1⟩,
      ⟨"s_nowrite", 1, 1⟩,
      ⟨"s_noexec", 2, 1⟩,
      ⟨"s_nodel", 3, 1⟩,
      ⟨"s_noappend", 4, 1⟩,
      ⟨"s_nodir", 5, 1⟩,
      ⟨"s_noupdate", 6, 1⟩,
      ⟨"s_nochprot", 7, 1⟩,
      ⟨"s_noextend", 8, 1⟩,
      ⟨"s_rw", 0, 2⟩]⟩,
   ⟨.when "m_protown", .bmex 3
     [⟨"o_noread", 0, 1⟩,
      ⟨"o_nowrite", 1, 1⟩,
      ⟨"o_noexec", 2, 1⟩,
      ⟨"o_nodel", 3, 1⟩,
      ⟨"o_noappend", 4, 1⟩,
      ⟨"o_nodir", 5, 1⟩,
      ⟨"o_noupdate", 6, 1⟩,
      ⟨"o_nochprot", 7, 1⟩,
      ⟨"o_noextend", 8, 1⟩,
      ⟨"o_rw", 0, 2⟩]⟩,
   ⟨.when "m_protgrp", .bmex 3
     [⟨"g_noread", 0, 1⟩,
      ⟨"g_nowrite", 1, 1⟩,
      ⟨"g_noexec", 2, 1⟩,
      ⟨"g_nodel", 3, 1⟩,
      ⟨"g_noappend", 4, 1⟩,
      ⟨"g_nodir", 5, 1⟩,
      ⟨"g_noupdate", 6, 1⟩,
      ⟨"g_nochprot", 7, 1⟩,
      ⟨"g_noextend", 8, 1⟩,
      ⟨"g_rw", 0, 2⟩]⟩,
   ⟨.when "m_protwld", .bmex 3
     [⟨"w_noread", 0, 1⟩,
      ⟨"w_nowrite", 1, 1⟩,
      ⟨"w_noexec", 2, 1⟩,
      ⟨"w_nodel", 3, 1⟩,
      ⟨"w_noappend", 4, 1⟩,
      ⟨"w_nodir", 5, 1⟩,
      ⟨"w_noupdate", 6, 1⟩,
      ⟨"w_nochprot", 7, 1⟩,
      ⟨"w_noextend", 8, 1⟩,
      ⟨"w_rw", 0, 2⟩]⟩]

/-- `Name._layout`, dap_packets.py 1239-1244. -/
def nameRows : List Row :=
  [⟨.always, .bmex 3
     [⟨"filespec", 0, 1⟩,
      ⟨"filename", 1, 1⟩,
      ⟨"dirname", 2, 1⟩,
      ⟨"volname", 3, 1⟩]⟩,
   ⟨.always, .fld "namespec" (.a 200)⟩]

/-- dap_packets.py 356. -/
def config : Layout := ⟨1, dapBaseRows ++ dapHeaderRows ++ configRows⟩

/-- dap_packets.py 443. -/
def attrib : Layout := ⟨2, dapBaseRows ++ dapHeaderRows ++ attribRows⟩

/-- dap_packets.py 491. -/
def access : Layout := ⟨3, dapBaseRows ++ dapHeaderRows ++ accessRows⟩

/-- dap_packets.py 525. -/
def control : Layout := ⟨4, dapBaseRows ++ dapHeaderRows ++ controlRows⟩

/-- dap_packets.py 549. -/
def contin : Layout := ⟨5, dapBaseRows ++ dapHeaderRows ++ continueRows⟩

/-- dap_packets.py 557. -/
def ack : Layout := ⟨6, dapBaseRows ++ dapHeaderRows ++ ackRows⟩

/-- dap_packets.py 563. -/
def accComplete : Layout := ⟨7, dapBaseRows ++ dapHeaderRows ++ accCompleteRows⟩

/-- dap_packets.py 574. -/
def data : Layout := ⟨8, dapBaseRows ++ dapHeaderRows ++ dataRows⟩

/-- dap_packets.py 583. -/
def status : Layout := ⟨9, dapBaseRows ++ dapHeaderRows ++ statusRows⟩

/-- dap_packets.py 1126. -/
def date : Layout := ⟨13, dapBaseRows ++ dapHeaderRows ++ dateRows⟩

/-- dap_packets.py 1200. -/
def prot : Layout := ⟨14, dapBaseRows ++ dapHeaderRows ++ protRows⟩

/-- dap_packets.py 1245. -/
def name : Layout := ⟨15, dapBaseRows ++ dapHeaderRows ++ nameRows⟩

/-- `classindex`, filled in by the metaclass (packet.py 603-663): the message classes. -/
def classes : List Layout :=
  [config, attrib, access, control, contin, ack, accComplete, data, status, date, prot, name]

/-- `DapBase.findclassb`, packet.py 699-746: the class for the type in the first byte. -/
def findClass (buf : Bytes) : Except Err Layout :=
  match buf with
  | [] => .error .missingData
  | t :: _ => match classes.find? fun L => L.type == t.toNat with
    | some L => .ok L
    | none => .error .other

/-- `DapBase.decode`, dap_packets.py 200-245. -/
def decodeAny (buf : Bytes) : Except Err (Layout × Attrs × Bytes) := do
  let L ← findClass buf
  let (q, rest) ← decode L buf
  return (L, q, rest)

end Verif.Dap
