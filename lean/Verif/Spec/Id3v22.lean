import Verif.Model.Bytes
/-!
# The frames of ID3v2.2

The frame ids of ID3v2.2 with the ids of ID3v2.4 that have the same meaning, from the lists of frames of the two standards (ID3v2.2, section 4;
ID3v2.4 frames, section 4) and the additions of iTunes, whose three letter ids are known from its files.
-/
namespace Lofty.Id3v22

/-- Old id, new id. -/
def names : List (String × String) :=
  [ -- 4.1 unique file identifier
    ("UFI", "UFID"),
    -- 4.2.1 texts
    ("TT1", "TIT1"), ("TT2", "TIT2"), ("TT3", "TIT3"), ("TP1", "TPE1"), ("TP2", "TPE2"), ("TP3", "TPE3"), ("TP4", "TPE4"),
    ("TCM", "TCOM"), ("TXT", "TEXT"), ("TLA", "TLAN"), ("TCO", "TCON"), ("TAL", "TALB"), ("TPA", "TPOS"), ("TRK", "TRCK"),
    ("TRC", "TSRC"), ("TYE", "TDRC"), ("TRD", "TDRC"), ("TMT", "TMED"), ("TFT", "TFLT"), ("TBP", "TBPM"), ("TCR", "TCOP"),
    ("TPB", "TPUB"), ("TEN", "TENC"), ("TSS", "TSSE"), ("TOF", "TOFN"), ("TLE", "TLEN"), ("TDY", "TDLY"), ("TKE", "TKEY"),
    ("TOT", "TOAL"), ("TOA", "TOPE"), ("TOL", "TOLY"), ("TOR", "TDOR"), ("TXX", "TXXX"),
    -- 4.3 links
    ("WAF", "WOAF"), ("WAR", "WOAR"), ("WAS", "WOAS"), ("WCM", "WCOM"), ("WCP", "WCOP"), ("WPB", "WPUB"), ("WXX", "WXXX"),
    -- 4.4 to 4.21
    ("IPL", "TIPL"), ("MCI", "MCDI"), ("ETC", "ETCO"), ("MLL", "MLLT"), ("STC", "SYTC"), ("ULT", "USLT"), ("SLT", "SYLT"),
    ("COM", "COMM"), ("REV", "RVRB"), ("PIC", "APIC"), ("GEO", "GEOB"), ("CNT", "PCNT"), ("POP", "POPM"), ("BUF", "RBUF"),
    ("CRA", "AENC"),
    -- iTunes
    ("TCP", "TCMP"), ("TS2", "TSO2"), ("TSA", "TSOA"), ("TSC", "TSOC"), ("TSP", "TSOP"), ("TST", "TSOT"), ("PCS", "PCST"),
    ("TCT", "TCAT"), ("TDS", "TDES"), ("TID", "TGID"), ("WFD", "WFED"), ("MVI", "MVIN"), ("MVN", "MVNM"), ("GP1", "GRP1"),
    ("TDR", "TDRL") ]

/-- The ids of the standard that no frame of ID3v2.4 continues: date, time, size, equalisation, volume, encrypted frame, and the link to other
frames (whose content holds old ids). -/
def ended : List String := ["TDA", "TIM", "TSI", "EQU", "RVA", "CRM", "LNK"]

/-- A frame of ID3v2.2: the id, the size in three bytes, the body. -/
def frameBytes (id : String) (body : Bytes) : Bytes := ascii id ++ beBytes 3 body.length ++ body

end Lofty.Id3v22
