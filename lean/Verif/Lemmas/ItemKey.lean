import Verif.Model.ItemKey
import Verif.Lemmas.Ascii
/-!
# The key tables in a form that is quick to compute with

Each format key is coded as a number that is the same for texts that differ in ASCII case only.  The tables of numbers
below are computed from the tables of the model (`codes_eq`, `names_eq`), so nothing rests on how they were made.
-/
namespace Lofty.Item

theorem ItemKey.mem_all (k : ItemKey) : k ∈ ItemKey.all := by cases k <;> decide

/-- All tag types. -/
def TagType.all : List TagType := [.ape, .id3v1, .id3v2, .mp4Ilst, .vorbisComments, .riffInfo, .aiffText]

theorem TagType.mem_all (t : TagType) : t ∈ TagType.all := by cases t <;> decide

/-- The number of a text. -/
def code : Str → Nat
  | [] => 0
  | c :: s => (lowerChar c).toNat + 1 + 2 ^ 21 * code s

theorem code_eq_iff (a b : Str) : code a = code b ↔ eqIc a b = true := by
  rw [eqIc_iff]
  induction a generalizing b with
  | nil =>
    cases b with
    | nil => simp
    | cons c s =>
      simp only [code, List.map_nil, List.map_cons]
      constructor
      · intro h; omega
      · intro h; cases h
  | cons c s ih =>
    cases b with
    | nil =>
      simp only [code, List.map_nil, List.map_cons]
      constructor
      · intro h; omega
      · intro h; cases h
    | cons d r =>
      have hc : (lowerChar c).toNat < 0x110000 := by
        have := (lowerChar c).valid
        rcases this with h | ⟨_, h⟩
        · have : (lowerChar c).toNat = (lowerChar c).val.toNat := rfl
          omega
        · exact h
      have hd : (lowerChar d).toNat < 0x110000 := by
        have := (lowerChar d).valid
        rcases this with h | ⟨_, h⟩
        · have : (lowerChar d).toNat = (lowerChar d).val.toNat := rfl
          omega
        · exact h
      simp only [code, List.map_cons, List.cons.injEq]
      rw [← ih r]
      constructor
      · intro h
        refine ⟨?_, by omega⟩
        have : (lowerChar c).toNat = (lowerChar d).toNat := by omega
        exact Char.toNat_inj.mp this
      · rintro ⟨h1, h2⟩
        rw [h1, h2]

def apeCodes : List (Nat × ItemKey) :=
  [(2127710530880083103179604066, .AlbumTitle),
   (351989243046407303823170503378057604652932409055455680826169976917327973, .SetSubtitle),
   (18554229448017460382821791835840312299998937192, .ContentGroup), (1972967942959141401955139701, .TrackTitle),
   (18197417354700233164963869247519693960527216756, .TrackSubtitle),
   (38162750200244303382370308320174504239042711219339384, .Work),
   (351989244691896953029625724261997253792155238008346822064737682192334958, .Movement),
   (20873506948664482930206648735916926314867589230, .MovementNumber),
   (788833946114980098181788968851987200754862073092704604956303020744909827080302, .MovementTotal),
   (1851607120158693166274205083289132512881353922164813850295329700856714657122584887411, .ReleaseCountry),
   (43774917558030314765189365755113612748674032017080418, .AlbumTitleSortOrder),
   (3723958139603875780537927122333393283589689367381563183927327565617350764520329375073173602, .AlbumArtistSortOrder),
   (43774917558030314765189365600371024827732330792616053, .TrackTitleSortOrder),
   (91802655906658390670446409056021718968668965499254551347298, .TrackArtistSortOrder),
   (403752352165859802466602898997781113604444216925626696829083741103063138, .AlbumArtist),
   (192524124224595929368306588648691708377632001952806178923139301474, .AlbumArtist),
   (400301480637976924267145208318656124933872698017884373005605328119660642, .AlbumArtists),
   (839493050722894582680692107915886329717320993270111014912764313141111292952674, .AlbumArtists),
   (4746086091021789761905883344797794, .TrackArtist), (9868193386793306462227625521404622930018, .TrackArtists),
   (20516694259852748517488291833863709925495013474, .Arranger), (4664956181807900943577186096382072, .Writer),
   (20516694259853235295338122425418277288903966820, .Composer),
   (43026628184499433058643737944410461177143180476285028, .Conductor),
   (20516695110559193162271374528372564546100920421, .Director),
   (20516694259852667387849877300968942052808065126, .Engineer),
   (20873507374017603840463129184253707069889183853, .Lyricist), (9783122186590880450877238290676776435813, .MixDj),
   (2224424448875397604496638062, .MixEngineer),
   (43026626400439221682660247151294628336186937044893809, .Performer),
   (20516694259852586258346862339967259731476611185, .Producer), (2108367570192296446684823661, .Label),
   (43774917736435765929924534395625348310624024813109358, .Remixer), (922337713859095167077, .DiscTotal),
   (2089024738631713908169113717, .TrackTotal), (1060688215247071215738, .RecordingDate),
   (396850576199984068348462412031024670433967276043963321873421460345716848, .OriginalReleaseDate),
   (167841556649412562501109396209299765468658902393801536445331013747, .ReleaseDate),
   (922337709461069627498, .Isrc), (8677204453532837151944565251796954513507, .Barcode),
   (166196043461075722013430063670520245252606335200861590918870859874, .AcoustId),
   (151061686205969767571866081526016752612438826686128798224493151522689023358931968107942040419856544913893952889199056126050, .AcoustIdFingerprint),
   (832255993382436745963154606331294779837990366433415208842279593269764953210980, .CatalogNumber),
   (182651093742117825422036390189253280542847818026662074692606623844, .FlagCompilation),
   (1895596662833618655457050734, .OriginalMediaType),
   (45645636799317549311493380000656371698067968272367718, .EncodedBy),
   (300553199405603139963756554113493095812586119736078056874690752578330215266658924218962140603506622227687784314026410658716713075, .ReplayGainAlbumGain),
   (292430133332111515460230445245281047084509110320240619574728983817299497364240110034681890795959135577466849437460650946044362867, .ReplayGainAlbumPeak),
   (300553199405603139963756554113492962312823458295676775675656638848767413037871818422958747630862413978241352301216452994356215923, .ReplayGainTrackGain),
   (292430133332111515460230445245280913584746448879839338375694870087736695135453004238678497823314927328020417424650693281683865715, .ReplayGainTrackPeak),
   (1972967998299347234796339304, .Genre), (2224424541109065196498845796, .Color), (931561068303776481390, .Mood),
   (43774915773970018317600024459970293241831357029548132, .CopyrightMessage),
   (9953263735134355034926723866321502601316, .Comment),
   (18197416929346503782457964792287549774215774317, .Language), (4746086032993350420394886834421876, .Script),
   (4705520962329476599704124039102573, .Lyrics),
   (1760544407280490496492596770075985296759216159979916234241364321088692998352805036150, .UnsyncLyrics),
   (62181322146889377543852792478544238867346764730505743826380763741559744529976308548794582444030103741093628142944366, .MusicBrainzRecordingId),
   (11093518570444233483205689373345302960976749243179521354819513005175711793798430361612685158419233295687461407023172529207226119586558989739436433717274299334766, .MusicBrainzTrackId),
   (62181322146889657513147057443604666536463554406685833646086100235859852109343055167537666232558532076822573466255470, .MusicBrainzReleaseId),
   (11093518570444358353362055554392009713986842182288345073898253155296268751862819969737599225329159367880941256109153066983923861035501883506228002546708750794862, .MusicBrainzReleaseGroupId),
   (130403684102995994007491337290520010142934259497312336993662502464624531369562748405353248954582729608276692880365373620334, .MusicBrainzArtistId),
   (5289801869604329228063511171701019140499496950224435264759742916074105649635454931072942857554515574983198200578811669373336489298663351080323651223945326, .MusicBrainzReleaseArtistId),
   (29650364945835770389964121268860750759596771273654283018233085954964377286696827408883216537573852922316324974, .MusicBrainzWorkId),
   (276184041210008764672313243580379393247984249043791867774996835220621135335023286811947350169923983196942332550688294587829583982, .MusicBrainzReleaseType)]

def apeNames : List (ItemKey × Nat) :=
  [(.AlbumTitle, 2127710530880083103179604066),
   (.SetSubtitle, 351989243046407303823170503378057604652932409055455680826169976917327973),
   (.ContentGroup, 18554229448017460382821791835840312299998937192), (.TrackTitle, 1972967942959141401955139701),
   (.TrackSubtitle, 18197417354700233164963869247519693960527216756),
   (.AlbumTitleSortOrder, 43774917558030314765189365755113612748674032017080418),
   (.AlbumArtistSortOrder, 3723958139603875780537927122333393283589689367381563183927327565617350764520329375073173602),
   (.TrackTitleSortOrder, 43774917558030314765189365600371024827732330792616053),
   (.TrackArtistSortOrder, 91802655906658390670446409056021718968668965499254551347298),
   (.AlbumArtist, 403752352165859802466602898997781113604444216925626696829083741103063138),
   (.AlbumArtists, 400301480637976924267145208318656124933872698017884373005605328119660642),
   (.TrackArtist, 4746086091021789761905883344797794), (.TrackArtists, 9868193386793306462227625521404622930018),
   (.Arranger, 20516694259852748517488291833863709925495013474), (.Writer, 4664956181807900943577186096382072),
   (.Composer, 20516694259853235295338122425418277288903966820),
   (.Conductor, 43026628184499433058643737944410461177143180476285028),
   (.Director, 20516695110559193162271374528372564546100920421),
   (.Engineer, 20516694259852667387849877300968942052808065126),
   (.Lyricist, 20873507374017603840463129184253707069889183853), (.MixDj, 9783122186590880450877238290676776435813),
   (.MixEngineer, 2224424448875397604496638062),
   (.Performer, 43026626400439221682660247151294628336186937044893809),
   (.Producer, 20516694259852586258346862339967259731476611185), (.Label, 2108367570192296446684823661),
   (.Remixer, 43774917736435765929924534395625348310624024813109358), (.DiscNumber, 922337713859095167077),
   (.DiscTotal, 922337713859095167077), (.TrackNumber, 2089024738631713908169113717),
   (.TrackTotal, 2089024738631713908169113717), (.RecordingDate, 1060688215247071215738),
   (.Year, 1060688215247071215738),
   (.ReleaseDate, 167841556649412562501109396209299765468658902393801536445331013747),
   (.OriginalReleaseDate, 396850576199984068348462412031024670433967276043963321873421460345716848),
   (.Isrc, 922337709461069627498), (.Barcode, 8677204453532837151944565251796954513507),
   (.AcoustId, 166196043461075722013430063670520245252606335200861590918870859874),
   (.AcoustIdFingerprint, 151061686205969767571866081526016752612438826686128798224493151522689023358931968107942040419856544913893952889199056126050),
   (.CatalogNumber, 832255993382436745963154606331294779837990366433415208842279593269764953210980),
   (.Work, 38162750200244303382370308320174504239042711219339384),
   (.Movement, 351989244691896953029625724261997253792155238008346822064737682192334958),
   (.MovementNumber, 20873506948664482930206648735916926314867589230),
   (.MovementTotal, 788833946114980098181788968851987200754862073092704604956303020744909827080302),
   (.ReleaseCountry, 1851607120158693166274205083289132512881353922164813850295329700856714657122584887411),
   (.MusicBrainzRecordingId, 62181322146889377543852792478544238867346764730505743826380763741559744529976308548794582444030103741093628142944366),
   (.MusicBrainzTrackId, 11093518570444233483205689373345302960976749243179521354819513005175711793798430361612685158419233295687461407023172529207226119586558989739436433717274299334766),
   (.MusicBrainzReleaseId, 62181322146889657513147057443604666536463554406685833646086100235859852109343055167537666232558532076822573466255470),
   (.MusicBrainzReleaseGroupId, 11093518570444358353362055554392009713986842182288345073898253155296268751862819969737599225329159367880941256109153066983923861035501883506228002546708750794862),
   (.MusicBrainzArtistId, 130403684102995994007491337290520010142934259497312336993662502464624531369562748405353248954582729608276692880365373620334),
   (.MusicBrainzReleaseArtistId, 5289801869604329228063511171701019140499496950224435264759742916074105649635454931072942857554515574983198200578811669373336489298663351080323651223945326),
   (.MusicBrainzWorkId, 29650364945835770389964121268860750759596771273654283018233085954964377286696827408883216537573852922316324974),
   (.MusicBrainzReleaseType, 276184041210008764672313243580379393247984249043791867774996835220621135335023286811947350169923983196942332550688294587829583982),
   (.FlagCompilation, 182651093742117825422036390189253280542847818026662074692606623844),
   (.OriginalMediaType, 1895596662833618655457050734),
   (.EncodedBy, 45645636799317549311493380000656371698067968272367718),
   (.ReplayGainAlbumGain, 300553199405603139963756554113493095812586119736078056874690752578330215266658924218962140603506622227687784314026410658716713075),
   (.ReplayGainAlbumPeak, 292430133332111515460230445245281047084509110320240619574728983817299497364240110034681890795959135577466849437460650946044362867),
   (.ReplayGainTrackGain, 300553199405603139963756554113492962312823458295676775675656638848767413037871818422958747630862413978241352301216452994356215923),
   (.ReplayGainTrackPeak, 292430133332111515460230445245280913584746448879839338375694870087736695135453004238678497823314927328020417424650693281683865715),
   (.Genre, 1972967998299347234796339304), (.Color, 2224424541109065196498845796), (.Mood, 931561068303776481390),
   (.CopyrightMessage, 43774915773970018317600024459970293241831357029548132),
   (.Comment, 9953263735134355034926723866321502601316),
   (.Language, 18197416929346503782457964792287549774215774317), (.Script, 4746086032993350420394886834421876),
   (.Lyrics, 4705520962329476599704124039102573),
   (.UnsyncLyrics, 1760544407280490496492596770075985296759216159979916234241364321088692998352805036150)]

def id3v2Codes : List (Nat × ItemKey) :=
  [(913114311035898036341, .AlbumTitle), (1079135038485647327349, .SetSubtitle),
   (461169116414402887797, .ContentGroup), (461169098822235717736, .AppleId3v2ContentGroup),
   (470392488451257663605, .TrackTitle), (479615860488112439413, .TrackSubtitle),
   (1005347983025963532405, .OriginalAlbumTitle), (940784444738677768309, .OriginalArtist),
   (1125251867883587240053, .OriginalLyricist), (903890952193220542581, .AlbumTitleSortOrder),
   (470392466461046079605, .AlbumArtistSortOrder), (1079135020893461282933, .TrackTitleSortOrder),
   (1042241532746042179701, .TrackArtistSortOrder), (922337696266930094197, .ComposerSortOrder),
   (470392422480574677109, .AlbumArtist),
   (192524124224595929368306588648691708377632001952806178923139301474, .AlbumArtist),
   (403752352165859802466602898997781113604444216925626696829083741103063138, .AlbumArtist),
   (400301480637976924267145208318656124933872698017884373005605328119660642, .AlbumArtists),
   (839493050722894582680692107915886329717320993270111014912764313141111292952674, .AlbumArtists),
   (461169050443719901301, .TrackArtist), (9868193386793306462227625521404622930018, .TrackArtists),
   (1079135060475850522741, .Lyricist), (1014571416635444297845, .Composer), (479615794517429452917, .Conductor),
   (20516695110559193162271374528372564546100920421, .Director), (913114350618348093557, .Publisher),
   (1023794806264516575349, .InternetRadioStationName), (1033018178301371351157, .InternetRadioStationOwner),
   (488839166554284228725, .Remixer), (1069911648856600215669, .DiscTotal), (996124619785208070261, .TrackTotal),
   (1014571421033515974769, .Popularimeter),
   (1851607120158675911916565620250619972133564432359620639303804751262405010505437544554, .ParentalAdvisory),
   (922337709461038170229, .RecordingDate), (1060688276819720274037, .OriginalReleaseDate),
   (922337709461069627509, .Isrc), (8677204453532837151944565251796954513507, .Barcode),
   (166196043461052150915023190868255456223624286988320580038817742946, .AcoustId),
   (151061686205969767571866081526016752612438826686128798224493151522688999787833561235139775630827562865681411878319003009122, .AcoustIdFingerprint),
   (832255993382436745963154606331294779837990366433415208842279593269764953210980, .CatalogNumber),
   (996124685755899445368, .Work), (1014571412237437632622, .Movement), (1023794762284059852910, .MovementTotal),
   (1042241523949915603061, .FlagCompilation), (1079135038485613772913, .FlagPodcast),
   (1023794823856696328309, .FileOwner), (959231206404550295669, .TaggingTime), (1023794744691852836981, .Length),
   (1023794749089905639541, .OriginalFileName), (931561024323307176053, .OriginalMediaType),
   (922337691868854222965, .EncodedBy), (940784457932825690229, .EncoderSettings),
   (1023794744691836059765, .EncodingTime),
   (300553199405603139963756554113493095812586119736078056874690752578330215266658924218962140603506622227687784314026410658716713075, .ReplayGainAlbumGain),
   (292430133332111515460230445245281047084509110320240619574728983817299497364240110034681890795959135577466849437460650946044362867, .ReplayGainAlbumPeak),
   (300553199405603139963756554113492962312823458295676775675656638848767413037871818422958747630862413978241352301216452994356215923, .ReplayGainTrackGain),
   (292430133332111515460230445245280913584746448879839338375694870087736695135453004238678497823314927328020417424650693281683865715, .ReplayGainTrackPeak),
   (950007750804834877560, .AudioFileUrl), (1069911587283946963064, .AudioSourceUrl),
   (1014571416635444297848, .CommercialInformationUrl), (1042241532746008625272, .CopyrightUrl),
   (1060688215247092187256, .TrackArtistUrl), (1069911662050737651832, .RadioStationUrl),
   (1125251819505077715064, .PaymentUrl), (913114350618348093560, .PublisherUrl), (1023794788672299073653, .Genre),
   (1125251837097253273717, .InitialKey), (2224424541109065196498845796, .Color), (1033018160709174820981, .Mood),
   (1014571421033488711797, .IntegerBpm), (1042241532746008625269, .CopyrightMessage),
   (1069911604876109938805, .PodcastDescription), (1079134959320776573045, .PodcastSeriesCategory),
   (931561024323292495992, .PodcastUrl), (1005348057792731152501, .ReleaseDate),
   (931561041915480637557, .PodcastGlobalUniqueId), (931561103488140181621, .PodcastKeywords),
   (1014571407839376441444, .Comment), (1023794727099666792565, .Language), (1079135007699321749622, .UnsyncLyrics),
   (48789810644601456965435196842144980019100781559219973187697840863184436686735483912625363185842827398038592391343655561461360580116845116981162141701498154221029832389558382, .MusicBrainzTrackId),
   (130403684102971334309532308564305059571590804822909804080626252203283854753474709936415913883073514588392472811286810329198, .MusicBrainzReleaseId),
   (48789810644601456965697068540308629333563942047842400625645720976602499992361749631276158644222612646323874544044308031823617339594066992114649690515970308007148580832804974, .MusicBrainzReleaseGroupId),
   (273476346923914539691959274450208962840277306172618843600755064088961902905979070541291527221824937933312935632964458961178722414, .MusicBrainzArtistId),
   (23264794657040337069466860527642218664668233020708934423697541306918601430671373742138875087209162278179140783810182851450295393568319670574854715792890943878260064366, .MusicBrainzReleaseArtistId),
   (62181322146878878740907831321375114059822771498352209813354945561020300980652513836973632873838192318798756751343726, .MusicBrainzWorkId),
   (579199914391652300850071040796356326239548998496621516276841982771274124705036205878431671006662125171502137517267478230677369925927022, .MusicBrainzReleaseType),
   (2390656130147318666330424939582273579588768462563407600398212913952273387185363945165710727381430206938652181887623343834128506264534226770201226715719300501782495967944177042770811373626069542512764125294, .ReleaseCountry)]

def id3v2Names : List (ItemKey × Nat) :=
  [(.AlbumTitle, 913114311035898036341), (.SetSubtitle, 1079135038485647327349),
   (.ContentGroup, 461169116414402887797), (.TrackTitle, 470392488451257663605),
   (.TrackSubtitle, 479615860488112439413), (.OriginalAlbumTitle, 1005347983025963532405),
   (.OriginalArtist, 940784444738677768309), (.OriginalLyricist, 1125251867883587240053),
   (.AlbumTitleSortOrder, 903890952193220542581), (.AlbumArtistSortOrder, 470392466461046079605),
   (.TrackTitleSortOrder, 1079135020893461282933), (.TrackArtistSortOrder, 1042241532746042179701),
   (.ComposerSortOrder, 922337696266930094197), (.AlbumArtist, 470392422480574677109),
   (.AlbumArtists, 400301480637976924267145208318656124933872698017884373005605328119660642),
   (.TrackArtist, 461169050443719901301), (.TrackArtists, 9868193386793306462227625521404622930018),
   (.Writer, 1079135060475850522741), (.Composer, 1014571416635444297845), (.Conductor, 479615794517429452917),
   (.Director, 20516695110559193162271374528372564546100920421), (.Lyricist, 1079135060475850522741),
   (.Publisher, 913114350618348093557), (.Label, 913114350618348093557),
   (.InternetRadioStationName, 1023794806264516575349), (.InternetRadioStationOwner, 1033018178301371351157),
   (.Remixer, 488839166554284228725), (.DiscNumber, 1069911648856600215669), (.DiscTotal, 1069911648856600215669),
   (.TrackNumber, 996124619785208070261), (.TrackTotal, 996124619785208070261),
   (.Popularimeter, 1014571421033515974769),
   (.ParentalAdvisory, 1851607120158675911916565620250619972133564432359620639303804751262405010505437544554),
   (.RecordingDate, 922337709461038170229), (.ReleaseDate, 1005348057792731152501),
   (.OriginalReleaseDate, 1060688276819720274037), (.Isrc, 922337709461069627509),
   (.Barcode, 8677204453532837151944565251796954513507),
   (.AcoustId, 166196043461052150915023190868255456223624286988320580038817742946),
   (.AcoustIdFingerprint, 151061686205969767571866081526016752612438826686128798224493151522688999787833561235139775630827562865681411878319003009122),
   (.CatalogNumber, 832255993382436745963154606331294779837990366433415208842279593269764953210980),
   (.Work, 996124685755899445368), (.Movement, 1014571412237437632622), (.MovementNumber, 1023794762284059852910),
   (.MovementTotal, 1023794762284059852910),
   (.ReleaseCountry, 2390656130147318666330424939582273579588768462563407600398212913952273387185363945165710727381430206938652181887623343834128506264534226770201226715719300501782495967944177042770811373626069542512764125294),
   (.MusicBrainzTrackId, 48789810644601456965435196842144980019100781559219973187697840863184436686735483912625363185842827398038592391343655561461360580116845116981162141701498154221029832389558382),
   (.MusicBrainzReleaseId, 130403684102971334309532308564305059571590804822909804080626252203283854753474709936415913883073514588392472811286810329198),
   (.MusicBrainzReleaseGroupId, 48789810644601456965697068540308629333563942047842400625645720976602499992361749631276158644222612646323874544044308031823617339594066992114649690515970308007148580832804974),
   (.MusicBrainzArtistId, 273476346923914539691959274450208962840277306172618843600755064088961902905979070541291527221824937933312935632964458961178722414),
   (.MusicBrainzReleaseArtistId, 23264794657040337069466860527642218664668233020708934423697541306918601430671373742138875087209162278179140783810182851450295393568319670574854715792890943878260064366),
   (.MusicBrainzWorkId, 62181322146878878740907831321375114059822771498352209813354945561020300980652513836973632873838192318798756751343726),
   (.MusicBrainzReleaseType, 579199914391652300850071040796356326239548998496621516276841982771274124705036205878431671006662125171502137517267478230677369925927022),
   (.FlagCompilation, 1042241523949915603061), (.FlagPodcast, 1079135038485613772913),
   (.FileOwner, 1023794823856696328309), (.TaggingTime, 959231206404550295669), (.Length, 1023794744691852836981),
   (.OriginalFileName, 1023794749089905639541), (.OriginalMediaType, 931561024323307176053),
   (.EncodedBy, 922337691868854222965), (.EncoderSoftware, 940784457932825690229),
   (.EncoderSettings, 940784457932825690229), (.EncodingTime, 1023794744691836059765),
   (.ReplayGainAlbumGain, 300553199405603139963756554113493095812586119736078056874690752578330215266658924218962140603506622227687784314026410658716713075),
   (.ReplayGainAlbumPeak, 292430133332111515460230445245281047084509110320240619574728983817299497364240110034681890795959135577466849437460650946044362867),
   (.ReplayGainTrackGain, 300553199405603139963756554113492962312823458295676775675656638848767413037871818422958747630862413978241352301216452994356215923),
   (.ReplayGainTrackPeak, 292430133332111515460230445245280913584746448879839338375694870087736695135453004238678497823314927328020417424650693281683865715),
   (.AudioFileUrl, 950007750804834877560), (.AudioSourceUrl, 1069911587283946963064),
   (.CommercialInformationUrl, 1014571416635444297848), (.CopyrightUrl, 1042241532746008625272),
   (.TrackArtistUrl, 1060688215247092187256), (.RadioStationUrl, 1069911662050737651832),
   (.PaymentUrl, 1125251819505077715064), (.PublisherUrl, 913114350618348093560), (.Genre, 1023794788672299073653),
   (.InitialKey, 1125251837097253273717), (.Color, 2224424541109065196498845796), (.Mood, 1033018160709174820981),
   (.IntegerBpm, 1014571421033488711797), (.CopyrightMessage, 1042241532746008625269),
   (.PodcastDescription, 1069911604876109938805), (.PodcastSeriesCategory, 1079134959320776573045),
   (.PodcastUrl, 931561024323292495992), (.PodcastGlobalUniqueId, 931561041915480637557),
   (.PodcastKeywords, 931561103488140181621), (.Comment, 1014571407839376441444),
   (.Language, 1023794727099666792565), (.UnsyncLyrics, 1079135007699321749622),
   (.AppleId3v2ContentGroup, 461169098822235717736)]

def mp4IlstCodes : List (Nat × ItemKey) :=
  [(913114311035898036394, .AlbumTitle),
   (4191672932460576819427282622743615948151541704262923416828786333568420783641326296637910874207179793902413967494168206733434602550897270840353239545244761367129953108445467018496796112652103613899685255318601774, .SetSubtitle),
   (968454574043396309109, .ShowName), (1042241545940156547242, .ContentGroup),
   (1014571355062816211114, .TrackTitle),
   (216704411493417858439185328261547154214602504729063407239951259839638309317382140670189959536481031631080226878514274794142888470234337274381450737907977609403161081002819837709317570606, .TrackSubtitle),
   (996124685755916222634, .Work), (1023794819458645622954, .Movement), (977677959274371743914, .MovementNumber),
   (922337727053243089066, .MovementTotal), (1005347983025963532404, .AlbumTitleSortOrder),
   (903890890620560998516, .AlbumArtistSortOrder), (1014571412237422952564, .TrackTitleSortOrder),
   (1060688215247092187252, .TrackArtistSortOrder), (1023794806264510283892, .ShowNameSortOrder),
   (1033018107932620882036, .ComposerSortOrder), (1079135034087563067490, .AlbumArtist),
   (4767000453456686768938338983259051297714658586900628422887783712276813994680551712439960049562519275487723708383151229154227102428461260696795453234379965735684079694455119259336926110788300643355247941731221550, .AlbumArtists),
   (1079135034087563067562, .TrackArtist),
   (117515634153212989983225470908040884583172138624203553512864398189250333599498779377061502583943517368051364271139866283218544663377707741140745576646055425278608842764320042385454, .TrackArtists),
   (1079135034087609204906, .Composer), (1060688250431441207466, .Director),
   (512383705749306937696416669797992258090892810199342806093941258408765555784881960437797770413330385240108141564846803995882325856964418149520577068299379418187324274674609061189661638365544494, .Conductor),
   (244323580028425230527486777783349868337707618314278082311367968303707607911475622690209062355008466017241349836625243840522369338138380843945544213186656737978721269189150949063042007086, .Engineer),
   (248572698153875841656937604981312378297161103013566434287367494518807851794289741614069798137595613316391991502246313508432033869459513817331688410991043119858127790686415071627861557294, .Lyricist),
   (116502561582772449876285658969813665816930553581148640462443527272733638019058784886504957345214709774240073295782466191806568724126036395609349736023317847660113915416901832409134, .MixDj),
   (26489615625626458922007636594983629735376293949499779201500711107710134582632991605788529251693641785694459615743123607730601032887454076417748544918637285792949469230, .MixEngineer),
   (244323580028424264394718433623544582266983111910807855238379845047008725517275215708299489345605357973714805719192409074269223563351038460579575781132111804991969909699251681351094501422, .Producer),
   (25107549307941636759514467804355502303890594162388966241806975265017261752133135547862226292819148507167894027360811215587407370670907805216607247690215372472115527726, .Label),
   (116502561582772449876285658969813540947155260300683414324680977243839527003204979128407937246331451855297778822507960141623314582895710234146170343914360940570769176668654696136750, .Remixer),
   (996124690153933373541, .DiscTotal), (1023794771080144486517, .TrackTotal),
   (940784462330834452595, .Popularimeter), (959231180016304783475, .ParentalAdvisory),
   (1125251819505052549290, .RecordingDate),
   (4191673089224665226750650131139830869438213628968270115677472173914243143522761293573825221962856241874927133486722652720219205388195740747529182652570519863467142968471047143902039664871711983636262943572623406, .OriginalReleaseDate),
   (1998745483982403386473965700277321484440944099576286079496978327112756350442049965711673120595659761166157923690040345969634436003811870831684931260747163617812026039624980350301242863324949372542778343470, .ReleaseDate),
   (10983682279250591056789079398456609673514140519894292891749341971295795208085942857220837959987510294433000206785711664181297563052844681001535820586651198947374, .Isrc),
   (103332711882063316169339181825245792112430767087985813116723010344566825649473766371019356537454908111703750023315591380374934091585803355959532171919857084439759368726527516606510, .Barcode),
   (1979149847956822174886343383299479496118871009267599770738738842098393455009789353243022271155236054016881729014309616328101092565608041464191776734207784201120117975998449820210730291763845439013330616366, .AcoustId),
   (1798921966254331369635776497481127269094713972664768565555611551420716912814266248251038936660605184512623674407586652054061768519380833546341127030568278581820293064082262066605761677042698861610966722197102978887903747086168186775740910697962256530894093287470, .AcoustIdFingerprint),
   (9910941851934119932582169536084424505882118432470140886697746976294051638938067271572459305792479204610460949582692701111665948782185208289842690348759756513406962549197729612520293016250519837519744864683015123501102, .CatalogNumber),
   (1005348018210337718372, .FlagCompilation), (1079135038485613772913, .FlagPodcast),
   (22573761498202063553673942917726886294518079539891559525982670737256538810226008515389962182852837039690865889046350922854100191469951108495551718762435767546173980718, .OriginalMediaType),
   (922337691868854223018, .EncodedBy), (1033018160709189501098, .EncoderSoftware),
   (1023794744691842351274, .Genre),
   (26489616723993456052058318744178626094491501533001060927462006144732025340608275029267251503496054488936120773696266325796834938511834364587485655137312280156538142766, .Color),
   (11093518884689831737308004041492839199333379282049731878255378452581954813781782856428280423727084932177044629481914614357802354022467439001868524906742804381742, .Mood),
   (1033018165107221332085, .IntegerBpm),
   (5761170291959078121255445637058278275977463243122881642898253488913494394904565417311217543352020085813456839609463717055678988581064328411744154991722542, .Bpm),
   (1139953617418699056232981440639836019104208930559958874269233616741764035109875617361757134841478821784478240910526474176267334549051125911406334413505245801062231805308412026729504890156886282731566, .InitialKey),
   (3579145486973857651467738165867605499650876498161091847527487847090181934985617994633976983703345318899155719822953817877110264873171360001660941876765373604892159782131458132090629694251018887741949029783160397458686488060213132026719347619128545991160395639015079982, .ReplayGainAlbumGain),
   (3482411746209073799824176351962889605747006316141192056403675341261370249312497209291712403792506004352957857507413116686872848232899243896070345325736451063591165271551887523083088691037285943032221516530388767798576097783284400965026894401899101809385654733875707950, .ReplayGainAlbumPeak),
   (3579145486973857651467738165867603909865527392781600028895679795149360246611709577586161526160534361660525425160912426578439138287040854912381813531652634259816235848378994378147135622412578748466380705257458251132612975467559852092997258589239915035231136533371158574, .ReplayGainTrackGain),
   (3482411746209073799824176351962888015961657210761700237771867289320548560938588792243896946249695047114327562845371725388201721646768738806791216980623711718515241337799423769139594619198845803756653192004686621472502585190631121031304805372010470853456395628231786542, .ReplayGainTrackPeak),
   (1079135034087594524772, .CopyrightMessage),
   (103332719128070941482531970256886421118167121628699860187295309141689740658341544951253696378477809352496524326203516566381526833862315985499749948097352090807140331924538049691694, .License),
   (1069911604876109938797, .PodcastDescription), (959231206404544004196, .PodcastSeriesCategory),
   (1005348057792766804081, .PodcastUrl), (931561041915480637542, .PodcastGlobalUniqueId),
   (1106805180984461361260, .PodcastKeywords), (1079135012097334706346, .Comment),
   (922337713859086778469, .Description),
   (216704406428082057996151435921376927312416299690346372903270650612896734857987952729881460714662520084023895437155344836783740521537002628850711043141548789366684155511224382740920008750, .Language),
   (56518887303054695703141136523537636965073206272287133696927043305263305808979933249374654159247287016068429644691427294184911028642784938198453377589180772650718255948759086, .Script),
   (1060688320800202162346, .Lyrics), (304371721419127521401, .AppleXid),
   (1552915618150006731764040267815781533526609988504125909916774089801148439209284554633643008369127095130905118208750895093259552193822629250081968389004127450826858574286345620385757944744267682468685522572055953469154782819416755214652955879792060357024113754158, .MusicBrainzRecordingId),
   (581014711952119311309844760655983282680531965410213017065490501298628090987625255256532259252139840977125957640954100837809083968237280684428122608084082600449109875059821414902597187406470254913651596828295619133364877763382955649700808054287320393428211553541643856650568526864254928843053592300782676516798510, .MusicBrainzTrackId),
   (1552915618150006731767374289340228578338636415837645653714859506519933067869566971454727603277126806220332962999501357450020561185725196459953511393668156967673725084392825364514172906780930598193993094589775034177166102384563208423655142368749652276385182384174, .MusicBrainzReleaseId),
   (581014711952119311312963266492894138288031221347154811561432907099868636569884066641195793547075537114840558019741798238043210550250244506966158246765341668213535087863765323719621268927129396478350481281530372316989620938269489613083296082802660391949143127412011477525928044238649141924093015899930966603333678, .MusicBrainzReleaseGroupId),
   (3256700094434522917563884241961337382571517411768781215261063479592356355168672289166910666471289979624797333038001941389858074385904819256404227856483931858445238942990613375869295857848538490192340545259964424409490566051887982839805219806335863989608096905813819438, .MusicBrainzArtistId),
   (277049404121455817849854500906469785587178945361565549063205997359426046175136489913325725700024868069277368213729175616258546765393333336892297376112073635202554985160728201746078803325600642778571626320024487133354225866394772045043418128215063697126821537786914850983407400371220534783867711418531840046, .MusicBrainzReleaseArtistId),
   (740487870287898412591953410977900404384270468289627217821009485719611511864136141757032514898599843965951475211610515913593149594421903989780494109730266506065278831574481363983280142272081135837159901506117329921072206242825531654535931406903411673661486, .MusicBrainzWorkId),
   (6897417042142056944456181870091274057522446834512768810223802375937231063239482559194134693676636413417629674560582358617273226924052040655360438845350353126910606598719723791525670280208292004163819817376607867386893601969693008679663914605822770128440995304279088272769070, .MusicBrainzReleaseType),
   (28469189867368439094681866518855147432468584927011441576380508422422004696201419387774097708367295591440977629154123741338533506039046667271295902177349805763208529121917138738576235814207031496044282630501185288226612154349955150082917522267456414557291671523208672068581094619799330285349030288818415236406660748850946504044570945184084262958, .ReleaseCountry)]

def mp4IlstNames : List (ItemKey × Nat) :=
  [(.AlbumTitle, 913114311035898036394),
   (.SetSubtitle, 4191672932460576819427282622743615948151541704262923416828786333568420783641326296637910874207179793902413967494168206733434602550897270840353239545244761367129953108445467018496796112652103613899685255318601774),
   (.ShowName, 968454574043396309109), (.ContentGroup, 1042241545940156547242),
   (.TrackTitle, 1014571355062816211114),
   (.TrackSubtitle, 216704411493417858439185328261547154214602504729063407239951259839638309317382140670189959536481031631080226878514274794142888470234337274381450737907977609403161081002819837709317570606),
   (.AlbumTitleSortOrder, 1005347983025963532404), (.AlbumArtistSortOrder, 903890890620560998516),
   (.TrackTitleSortOrder, 1014571412237422952564), (.TrackArtistSortOrder, 1060688215247092187252),
   (.ShowNameSortOrder, 1023794806264510283892), (.ComposerSortOrder, 1033018107932620882036),
   (.AlbumArtist, 1079135034087563067490),
   (.AlbumArtists, 4767000453456686768938338983259051297714658586900628422887783712276813994680551712439960049562519275487723708383151229154227102428461260696795453234379965735684079694455119259336926110788300643355247941731221550),
   (.TrackArtist, 1079135034087563067562),
   (.TrackArtists, 117515634153212989983225470908040884583172138624203553512864398189250333599498779377061502583943517368051364271139866283218544663377707741140745576646055425278608842764320042385454),
   (.Composer, 1079135034087609204906),
   (.Conductor, 512383705749306937696416669797992258090892810199342806093941258408765555784881960437797770413330385240108141564846803995882325856964418149520577068299379418187324274674609061189661638365544494),
   (.Director, 1060688250431441207466),
   (.Engineer, 244323580028425230527486777783349868337707618314278082311367968303707607911475622690209062355008466017241349836625243840522369338138380843945544213186656737978721269189150949063042007086),
   (.Lyricist, 248572698153875841656937604981312378297161103013566434287367494518807851794289741614069798137595613316391991502246313508432033869459513817331688410991043119858127790686415071627861557294),
   (.MixDj, 116502561582772449876285658969813665816930553581148640462443527272733638019058784886504957345214709774240073295782466191806568724126036395609349736023317847660113915416901832409134),
   (.MixEngineer, 26489615625626458922007636594983629735376293949499779201500711107710134582632991605788529251693641785694459615743123607730601032887454076417748544918637285792949469230),
   (.Producer, 244323580028424264394718433623544582266983111910807855238379845047008725517275215708299489345605357973714805719192409074269223563351038460579575781132111804991969909699251681351094501422),
   (.Label, 25107549307941636759514467804355502303890594162388966241806975265017261752133135547862226292819148507167894027360811215587407370670907805216607247690215372472115527726),
   (.Remixer, 116502561582772449876285658969813540947155260300683414324680977243839527003204979128407937246331451855297778822507960141623314582895710234146170343914360940570769176668654696136750),
   (.DiscNumber, 996124690153933373541), (.DiscTotal, 996124690153933373541),
   (.TrackNumber, 1023794771080144486517), (.TrackTotal, 1023794771080144486517),
   (.Popularimeter, 940784462330834452595), (.ParentalAdvisory, 959231180016304783475),
   (.RecordingDate, 1125251819505052549290),
   (.ReleaseDate, 1998745483982403386473965700277321484440944099576286079496978327112756350442049965711673120595659761166157923690040345969634436003811870831684931260747163617812026039624980350301242863324949372542778343470),
   (.OriginalReleaseDate, 4191673089224665226750650131139830869438213628968270115677472173914243143522761293573825221962856241874927133486722652720219205388195740747529182652570519863467142968471047143902039664871711983636262943572623406),
   (.Isrc, 10983682279250591056789079398456609673514140519894292891749341971295795208085942857220837959987510294433000206785711664181297563052844681001535820586651198947374),
   (.Barcode, 103332711882063316169339181825245792112430767087985813116723010344566825649473766371019356537454908111703750023315591380374934091585803355959532171919857084439759368726527516606510),
   (.AcoustId, 1979149847956822174886343383299479496118871009267599770738738842098393455009789353243022271155236054016881729014309616328101092565608041464191776734207784201120117975998449820210730291763845439013330616366),
   (.AcoustIdFingerprint, 1798921966254331369635776497481127269094713972664768565555611551420716912814266248251038936660605184512623674407586652054061768519380833546341127030568278581820293064082262066605761677042698861610966722197102978887903747086168186775740910697962256530894093287470),
   (.CatalogNumber, 9910941851934119932582169536084424505882118432470140886697746976294051638938067271572459305792479204610460949582692701111665948782185208289842690348759756513406962549197729612520293016250519837519744864683015123501102),
   (.Work, 996124685755916222634), (.Movement, 1023794819458645622954), (.MovementNumber, 977677959274371743914),
   (.MovementTotal, 922337727053243089066),
   (.ReleaseCountry, 28469189867368439094681866518855147432468584927011441576380508422422004696201419387774097708367295591440977629154123741338533506039046667271295902177349805763208529121917138738576235814207031496044282630501185288226612154349955150082917522267456414557291671523208672068581094619799330285349030288818415236406660748850946504044570945184084262958),
   (.MusicBrainzRecordingId, 1552915618150006731764040267815781533526609988504125909916774089801148439209284554633643008369127095130905118208750895093259552193822629250081968389004127450826858574286345620385757944744267682468685522572055953469154782819416755214652955879792060357024113754158),
   (.MusicBrainzTrackId, 581014711952119311309844760655983282680531965410213017065490501298628090987625255256532259252139840977125957640954100837809083968237280684428122608084082600449109875059821414902597187406470254913651596828295619133364877763382955649700808054287320393428211553541643856650568526864254928843053592300782676516798510),
   (.MusicBrainzReleaseId, 1552915618150006731767374289340228578338636415837645653714859506519933067869566971454727603277126806220332962999501357450020561185725196459953511393668156967673725084392825364514172906780930598193993094589775034177166102384563208423655142368749652276385182384174),
   (.MusicBrainzReleaseGroupId, 581014711952119311312963266492894138288031221347154811561432907099868636569884066641195793547075537114840558019741798238043210550250244506966158246765341668213535087863765323719621268927129396478350481281530372316989620938269489613083296082802660391949143127412011477525928044238649141924093015899930966603333678),
   (.MusicBrainzArtistId, 3256700094434522917563884241961337382571517411768781215261063479592356355168672289166910666471289979624797333038001941389858074385904819256404227856483931858445238942990613375869295857848538490192340545259964424409490566051887982839805219806335863989608096905813819438),
   (.MusicBrainzReleaseArtistId, 277049404121455817849854500906469785587178945361565549063205997359426046175136489913325725700024868069277368213729175616258546765393333336892297376112073635202554985160728201746078803325600642778571626320024487133354225866394772045043418128215063697126821537786914850983407400371220534783867711418531840046),
   (.MusicBrainzWorkId, 740487870287898412591953410977900404384270468289627217821009485719611511864136141757032514898599843965951475211610515913593149594421903989780494109730266506065278831574481363983280142272081135837159901506117329921072206242825531654535931406903411673661486),
   (.MusicBrainzReleaseType, 6897417042142056944456181870091274057522446834512768810223802375937231063239482559194134693676636413417629674560582358617273226924052040655360438845350353126910606598719723791525670280208292004163819817376607867386893601969693008679663914605822770128440995304279088272769070),
   (.FlagCompilation, 1005348018210337718372), (.FlagPodcast, 1079135038485613772913),
   (.OriginalMediaType, 22573761498202063553673942917726886294518079539891559525982670737256538810226008515389962182852837039690865889046350922854100191469951108495551718762435767546173980718),
   (.EncodedBy, 922337691868854223018), (.EncoderSoftware, 1033018160709189501098),
   (.ReplayGainAlbumGain, 3579145486973857651467738165867605499650876498161091847527487847090181934985617994633976983703345318899155719822953817877110264873171360001660941876765373604892159782131458132090629694251018887741949029783160397458686488060213132026719347619128545991160395639015079982),
   (.ReplayGainAlbumPeak, 3482411746209073799824176351962889605747006316141192056403675341261370249312497209291712403792506004352957857507413116686872848232899243896070345325736451063591165271551887523083088691037285943032221516530388767798576097783284400965026894401899101809385654733875707950),
   (.ReplayGainTrackGain, 3579145486973857651467738165867603909865527392781600028895679795149360246611709577586161526160534361660525425160912426578439138287040854912381813531652634259816235848378994378147135622412578748466380705257458251132612975467559852092997258589239915035231136533371158574),
   (.ReplayGainTrackPeak, 3482411746209073799824176351962888015961657210761700237771867289320548560938588792243896946249695047114327562845371725388201721646768738806791216980623711718515241337799423769139594619198845803756653192004686621472502585190631121031304805372010470853456395628231786542),
   (.Genre, 1023794744691842351274),
   (.InitialKey, 1139953617418699056232981440639836019104208930559958874269233616741764035109875617361757134841478821784478240910526474176267334549051125911406334413505245801062231805308412026729504890156886282731566),
   (.Color, 26489616723993456052058318744178626094491501533001060927462006144732025340608275029267251503496054488936120773696266325796834938511834364587485655137312280156538142766),
   (.Mood, 11093518884689831737308004041492839199333379282049731878255378452581954813781782856428280423727084932177044629481914614357802354022467439001868524906742804381742),
   (.Bpm, 5761170291959078121255445637058278275977463243122881642898253488913494394904565417311217543352020085813456839609463717055678988581064328411744154991722542),
   (.IntegerBpm, 1033018165107221332085), (.CopyrightMessage, 1079135034087594524772),
   (.License, 103332719128070941482531970256886421118167121628699860187295309141689740658341544951253696378477809352496524326203516566381526833862315985499749948097352090807140331924538049691694),
   (.PodcastDescription, 1069911604876109938797), (.PodcastSeriesCategory, 959231206404544004196),
   (.PodcastUrl, 1005348057792766804081), (.PodcastGlobalUniqueId, 931561041915480637542),
   (.PodcastKeywords, 1106805180984461361260), (.Comment, 1079135012097334706346),
   (.Description, 922337713859086778469),
   (.Language, 216704406428082057996151435921376927312416299690346372903270650612896734857987952729881460714662520084023895437155344836783740521537002628850711043141548789366684155511224382740920008750),
   (.Script, 56518887303054695703141136523537636965073206272287133696927043305263305808979933249374654159247287016068429644691427294184911028642784938198453377589180772650718255948759086),
   (.Lyrics, 1060688320800202162346), (.UnsyncLyrics, 1060688320800202162346), (.AppleXid, 304371721419127521401)]

def vorbisCommentsCodes : List (Nat × ItemKey) :=
  [(2127710530880083103179604066, .AlbumTitle),
   (351989243046407303823170503378057604652932409055455680826169976917327973, .SetSubtitle),
   (18554229448017460382821791835840312299998937192, .ContentGroup), (1972967942959141401955139701, .TrackTitle),
   (18197417354700233164963869247519693960527216756, .TrackSubtitle), (996124685755899445368, .Work),
   (351989244691896953029625724261997253792155238008346822064737682192334958, .Movement),
   (20873506948664482930206648735916926314867589230, .MovementNumber),
   (788833946114980098181788968851987200754862073092704604956303020744909827080302, .MovementTotal),
   (1851607120158693166274205083289132512881353922164813850295329700856714657122584887411, .ReleaseCountry),
   (43774917558030314765189365755113612748674032017080418, .AlbumTitleSortOrder),
   (3723958139603875780537927122333393283589689367381563183927327565617350764520329375073173602, .AlbumArtistSortOrder),
   (43774917558030314765189365600371024827732330792616053, .TrackTitleSortOrder),
   (91802655906658390670446409056021718968668965499254551347298, .TrackArtistSortOrder),
   (192524124224595929368306588648691708377632001952806178923139301474, .AlbumArtist),
   (403752352165859802466602898997781113604444216925626696829083741103063138, .AlbumArtist),
   (400301480637976924267145208318656124933872698017884373005605328119660642, .AlbumArtists),
   (839493050722894582680692107915886329717320993270111014912764313141111292952674, .AlbumArtists),
   (4746086091021789761905883344797794, .TrackArtist), (9868193386793306462227625521404622930018, .TrackArtists),
   (20516694259852748517488291833863709925495013474, .Arranger), (4664956375235921401501790309974114, .Writer),
   (4664956181807900943577186096382072, .Writer), (20516694259853235295338122425418277288903966820, .Composer),
   (43026628184499433058643737944410461177143180476285028, .Conductor),
   (20516695110559193162271374528372564546100920421, .Director),
   (20516694259852667387849877300968942052808065126, .Engineer),
   (20873507374017603840463129184253707069889183853, .Lyricist), (9783122186590880450877238290676776435813, .MixDj),
   (2224424448875397604496638062, .MixEngineer),
   (43026626400439221682660247151294628336186937044893809, .Performer),
   (20516694259852586258346862339967259731476611185, .Producer),
   (43026626400438796329742160681365779115932993483440241, .Publisher), (2108367570192296446684823661, .Label),
   (383047106543469881819474459758174086785278610516186808168707617407893616, .Label),
   (9783122186590880450877238290676765950067, .Remixer),
   (43774917736435765929924534395625348310624024813109358, .Remixer),
   (90233375608931952164231479223733274168140501323392097452133, .DiscNumber),
   (40781759171875703941339864000502621675325800021229669, .DiscTotal),
   (91018012577569481847295375889571943303836626437829900107893, .DiscTotal),
   (189233104125022861345122375117010683388418930988691068716278874229, .TrackNumber),
   (85525547810817476271988778468382228794010188850882186051701, .TrackTotal),
   (190878613390170743069566202093286689819111964362551326490962690165, .TrackTotal),
   (4218743344612780761712920799215731, .Popularimeter), (940784462330834452581, .RecordingDate),
   (1060688215247071215738, .Year),
   (351989256210428854274326573727965621599720048902946467611489931146297456, .OriginalReleaseDate),
   (396850576199984068348462412031024670433967276043963321873421460345716848, .OriginalReleaseDate),
   (167841556649412562501109396209299765468658902393801536445331013747, .ReleaseDate),
   (922337709461069627498, .Isrc), (8677204453532837151944565251796954513507, .Barcode),
   (166196043461075722013430063670520245252606335200861590918870859874, .AcoustId),
   (151061686205969767571866081526016752612438826686128798224493151522689023358931968107942040419856544913893952889199056126050, .AcoustIdFingerprint),
   (832255993382436745963154606331294779837990366433415208842279593269764953210980, .CatalogNumber),
   (182651093742117825422036390189253280542847818026662074692606623844, .FlagCompilation),
   (1895596662833618655457050734, .OriginalMediaType),
   (45645636799317549311493380000656371698067968272367718, .EncodedBy),
   (95725838504952584845724540829788607323910595956635449950310, .EncodedBy),
   (95725838504961505143803953079045221611219655301237842116710, .EncodedBy),
   (9783122186590493594670301797581542391910, .EncoderSoftware),
   (18554229448017460382589678023134018500760174694, .EncoderSettings),
   (3692129285525534272751304562314573124689587657323131915628955217782513828699400258333966438, .EncoderSettings),
   (300553199405603139963756554113493095812586119736078056874690752578330215266658924218962140603506622227687784314026410658716713075, .ReplayGainAlbumGain),
   (292430133332111515460230445245281047084509110320240619574728983817299497364240110034681890795959135577466849437460650946044362867, .ReplayGainAlbumPeak),
   (300553199405603139963756554113492962312823458295676775675656638848767413037871818422958747630862413978241352301216452994356215923, .ReplayGainTrackGain),
   (292430133332111515460230445245280913584746448879839338375694870087736695135453004238678497823314927328020417424650693281683865715, .ReplayGainTrackPeak),
   (3532985880228509907209191875713007769276642803248346819073311562719548761618990586312786035, .R128TrackGain),
   (3532985880228509907209191875713009338558811249641764029831673816504961207005591988326105203, .R128AlbumGain),
   (1972967998299347234796339304, .Genre), (2224424541109065196498845796, .Color), (931561068303776481390, .Mood),
   (483785353199715, .Bpm), (95725839627396903486157017770879457378104260519890664816746, .InitialKey),
   (536561888264300, .InitialKey), (43774915773970018317600024459970293241831357029548132, .CopyrightMessage),
   (8677205062005105918700010814250726457453, .License), (9953263735134355034926723866321502601316, .Comment),
   (182651093742117825422036391465312034802083519302415005388533399653, .Description),
   (18197416929346503782457964792287549774215774317, .Language), (4746086032993350420394886834421876, .Script),
   (4705520962329476599704124039102573, .Lyrics),
   (1760544407280490496492596770075985296759216159979916234241364321088692998352805036150, .UnsyncLyrics),
   (62181322146889377543852792478544238867346764730505743826380763741559744529976308548794582444030103741093628142944366, .MusicBrainzRecordingId),
   (11093518570444233483205689373345302960976749243179521354819513005175711793798430361612685158419233295687461407023172529207226119586558989739436433717274299334766, .MusicBrainzTrackId),
   (62181322146889657513147057443604666536463554406685833646086100235859852109343055167537666232558532076822573466255470, .MusicBrainzReleaseId),
   (11093518570444358353362055554392009713986842182288345073898253155296268751862819969737599225329159367880941256109153066983923861035501883506228002546708750794862, .MusicBrainzReleaseGroupId),
   (130403684102995994007491337290520010142934259497312336993662502464624531369562748405353248954582729608276692880365373620334, .MusicBrainzArtistId),
   (5289801869604329228063511171701019140499496950224435264759742916074105649635454931072942857554515574983198200578811669373336489298663351080323651223945326, .MusicBrainzReleaseArtistId),
   (29650364945835770389964121268860750759596771273654283018233085954964377286696827408883216537573852922316324974, .MusicBrainzWorkId),
   (167841553510870674276683270744346417066554475124395570535623295091, .MusicBrainzReleaseType)]

def vorbisCommentsNames : List (ItemKey × Nat) :=
  [(.AlbumTitle, 2127710530880083103179604066),
   (.SetSubtitle, 351989243046407303823170503378057604652932409055455680826169976917327973),
   (.ContentGroup, 18554229448017460382821791835840312299998937192), (.TrackTitle, 1972967942959141401955139701),
   (.TrackSubtitle, 18197417354700233164963869247519693960527216756),
   (.AlbumTitleSortOrder, 43774917558030314765189365755113612748674032017080418),
   (.AlbumArtistSortOrder, 3723958139603875780537927122333393283589689367381563183927327565617350764520329375073173602),
   (.TrackTitleSortOrder, 43774917558030314765189365600371024827732330792616053),
   (.TrackArtistSortOrder, 91802655906658390670446409056021718968668965499254551347298),
   (.AlbumArtist, 192524124224595929368306588648691708377632001952806178923139301474),
   (.AlbumArtists, 400301480637976924267145208318656124933872698017884373005605328119660642),
   (.TrackArtist, 4746086091021789761905883344797794), (.TrackArtists, 9868193386793306462227625521404622930018),
   (.Arranger, 20516694259852748517488291833863709925495013474), (.Writer, 4664956375235921401501790309974114),
   (.Composer, 20516694259853235295338122425418277288903966820),
   (.Conductor, 43026628184499433058643737944410461177143180476285028),
   (.Director, 20516695110559193162271374528372564546100920421),
   (.Engineer, 20516694259852667387849877300968942052808065126),
   (.Lyricist, 20873507374017603840463129184253707069889183853), (.MixDj, 9783122186590880450877238290676776435813),
   (.MixEngineer, 2224424448875397604496638062),
   (.Performer, 43026626400439221682660247151294628336186937044893809),
   (.Producer, 20516694259852586258346862339967259731476611185),
   (.Publisher, 43026626400438796329742160681365779115932993483440241), (.Label, 2108367570192296446684823661),
   (.Remixer, 9783122186590880450877238290676765950067),
   (.DiscNumber, 90233375608931952164231479223733274168140501323392097452133),
   (.DiscTotal, 40781759171875703941339864000502621675325800021229669),
   (.TrackNumber, 189233104125022861345122375117010683388418930988691068716278874229),
   (.TrackTotal, 85525547810817476271988778468382228794010188850882186051701),
   (.Popularimeter, 4218743344612780761712920799215731), (.RecordingDate, 940784462330834452581),
   (.Year, 1060688215247071215738),
   (.ReleaseDate, 167841556649412562501109396209299765468658902393801536445331013747),
   (.OriginalReleaseDate, 351989256210428854274326573727965621599720048902946467611489931146297456),
   (.Isrc, 922337709461069627498), (.Barcode, 8677204453532837151944565251796954513507),
   (.AcoustId, 166196043461075722013430063670520245252606335200861590918870859874),
   (.AcoustIdFingerprint, 151061686205969767571866081526016752612438826686128798224493151522689023358931968107942040419856544913893952889199056126050),
   (.CatalogNumber, 832255993382436745963154606331294779837990366433415208842279593269764953210980),
   (.Work, 996124685755899445368),
   (.Movement, 351989244691896953029625724261997253792155238008346822064737682192334958),
   (.MovementNumber, 20873506948664482930206648735916926314867589230),
   (.MovementTotal, 788833946114980098181788968851987200754862073092704604956303020744909827080302),
   (.ReleaseCountry, 1851607120158693166274205083289132512881353922164813850295329700856714657122584887411),
   (.MusicBrainzRecordingId, 62181322146889377543852792478544238867346764730505743826380763741559744529976308548794582444030103741093628142944366),
   (.MusicBrainzTrackId, 11093518570444233483205689373345302960976749243179521354819513005175711793798430361612685158419233295687461407023172529207226119586558989739436433717274299334766),
   (.MusicBrainzReleaseId, 62181322146889657513147057443604666536463554406685833646086100235859852109343055167537666232558532076822573466255470),
   (.MusicBrainzReleaseGroupId, 11093518570444358353362055554392009713986842182288345073898253155296268751862819969737599225329159367880941256109153066983923861035501883506228002546708750794862),
   (.MusicBrainzArtistId, 130403684102995994007491337290520010142934259497312336993662502464624531369562748405353248954582729608276692880365373620334),
   (.MusicBrainzReleaseArtistId, 5289801869604329228063511171701019140499496950224435264759742916074105649635454931072942857554515574983198200578811669373336489298663351080323651223945326),
   (.MusicBrainzWorkId, 29650364945835770389964121268860750759596771273654283018233085954964377286696827408883216537573852922316324974),
   (.MusicBrainzReleaseType, 167841553510870674276683270744346417066554475124395570535623295091),
   (.FlagCompilation, 182651093742117825422036390189253280542847818026662074692606623844),
   (.OriginalMediaType, 1895596662833618655457050734),
   (.EncodedBy, 45645636799317549311493380000656371698067968272367718),
   (.EncoderSoftware, 9783122186590493594670301797581542391910),
   (.EncoderSettings, 18554229448017460382589678023134018500760174694),
   (.ReplayGainAlbumGain, 300553199405603139963756554113493095812586119736078056874690752578330215266658924218962140603506622227687784314026410658716713075),
   (.ReplayGainAlbumPeak, 292430133332111515460230445245281047084509110320240619574728983817299497364240110034681890795959135577466849437460650946044362867),
   (.ReplayGainTrackGain, 300553199405603139963756554113492962312823458295676775675656638848767413037871818422958747630862413978241352301216452994356215923),
   (.ReplayGainTrackPeak, 292430133332111515460230445245280913584746448879839338375694870087736695135453004238678497823314927328020417424650693281683865715),
   (.R128TrackGain, 3532985880228509907209191875713007769276642803248346819073311562719548761618990586312786035),
   (.R128AlbumGain, 3532985880228509907209191875713009338558811249641764029831673816504961207005591988326105203),
   (.Genre, 1972967998299347234796339304),
   (.InitialKey, 95725839627396903486157017770879457378104260519890664816746),
   (.Color, 2224424541109065196498845796), (.Mood, 931561068303776481390), (.Bpm, 483785353199715),
   (.CopyrightMessage, 43774915773970018317600024459970293241831357029548132),
   (.License, 8677205062005105918700010814250726457453), (.Comment, 9953263735134355034926723866321502601316),
   (.Description, 182651093742117825422036391465312034802083519302415005388533399653),
   (.Language, 18197416929346503782457964792287549774215774317), (.Script, 4746086032993350420394886834421876),
   (.Lyrics, 4705520962329476599704124039102573),
   (.UnsyncLyrics, 1760544407280490496492596770075985296759216159979916234241364321088692998352805036150)]

def riffInfoCodes : List (Nat × ItemKey) :=
  [(931561081497918111850, .AlbumTitle), (1014571355062816211050, .TrackTitle),
   (1079135034087563067498, .TrackArtist), (977677941682206670954, .Writer), (1069911675244872990826, .Composer),
   (1033018173903320645738, .Producer), (1079135034087594524778, .TrackNumber),
   (996124685755909931114, .TrackNumber), (1014571429829590122602, .TrackTotal),
   (931561090294015328362, .Popularimeter), (931561081497890848874, .RecordingDate),
   (1023794744691852836981, .Length), (950007825571633954922, .OriginalMediaType),
   (968454503674647937130, .EncodedBy), (1079134981311042682986, .EncoderSoftware),
   (1060688272421680054378, .Genre), (1042241532746008625258, .CopyrightMessage),
   (1079135012097334706282, .Comment), (959231180016288006250, .Language),
   (1079135016495381217386, .ReleaseCountry)]

def riffInfoNames : List (ItemKey × Nat) :=
  [(.AlbumTitle, 931561081497918111850), (.TrackTitle, 1014571355062816211050),
   (.TrackArtist, 1079135034087563067498), (.Writer, 977677941682206670954), (.Composer, 1069911675244872990826),
   (.Producer, 1033018173903320645738), (.TrackNumber, 1079135034087594524778),
   (.TrackTotal, 1014571429829590122602), (.Popularimeter, 931561090294015328362),
   (.RecordingDate, 931561081497890848874), (.ReleaseCountry, 1079135016495381217386),
   (.Length, 1023794744691852836981), (.OriginalMediaType, 950007825571633954922),
   (.EncodedBy, 968454503674647937130), (.EncoderSoftware, 1079134981311042682986),
   (.Genre, 1060688272421680054378), (.CopyrightMessage, 1042241532746008625258),
   (.Comment, 1079135012097334706282), (.Language, 959231180016288006250)]

def aiffTextCodes : List (Nat × ItemKey) :=
  [(940784431544508874863, .TrackTitle), (968454578441440723042, .TrackArtist),
   (304371461934370783273, .CopyrightMessage), (1014571407839376441444, .Comment),
   (1033018156311130407010, .Comment)]

def aiffTextNames : List (ItemKey × Nat) :=
  [(.TrackTitle, 940784431544508874863), (.TrackArtist, 968454578441440723042),
   (.CopyrightMessage, 304371461934370783273), (.Comment, 1014571407839376441444)]

/-- The entries of a table: the number of the format key and the generic key it is read as. -/
def codes : TagType → List (Nat × ItemKey)
  | .id3v1 => []
  | .ape => apeCodes
  | .id3v2 => id3v2Codes
  | .mp4Ilst => mp4IlstCodes
  | .vorbisComments => vorbisCommentsCodes
  | .riffInfo => riffInfoCodes
  | .aiffText => aiffTextCodes

/-- The numbers of the format keys that are written for generic keys. -/
def names : TagType → List (ItemKey × Nat)
  | .id3v1 => []
  | .ape => apeNames
  | .id3v2 => id3v2Names
  | .mp4Ilst => mp4IlstNames
  | .vorbisComments => vorbisCommentsNames
  | .riffInfo => riffInfoNames
  | .aiffText => aiffTextNames

/-- A table with numbers for the keys. -/
def coded (m : List (String × List ItemKey)) : List (Nat × Option ItemKey) := m.map fun e => (code (str e.1), e.2.head?)

theorem ape_codes : ((mapOf .ape).map fun rows => coded (entries rows)) = some ((apeCodes).map fun c => (c.1, some c.2)) := by
  decide +kernel

theorem ape_names : ∀ k ∈ ItemKey.all, (mapKey .ape k).map code = apeNames.lookup k := by
  decide +kernel

theorem id3v2_codes : ((mapOf .id3v2).map fun rows => coded (entries rows)) = some ((id3v2Codes).map fun c => (c.1, some c.2)) := by
  decide +kernel

theorem id3v2_names : ∀ k ∈ ItemKey.all, (mapKey .id3v2 k).map code = id3v2Names.lookup k := by
  decide +kernel

theorem mp4Ilst_codes : ((mapOf .mp4Ilst).map fun rows => coded (entries rows)) = some ((mp4IlstCodes).map fun c => (c.1, some c.2)) := by
  decide +kernel

theorem mp4Ilst_names : ∀ k ∈ ItemKey.all, (mapKey .mp4Ilst k).map code = mp4IlstNames.lookup k := by
  decide +kernel

theorem vorbisComments_codes : ((mapOf .vorbisComments).map fun rows => coded (entries rows)) = some ((vorbisCommentsCodes).map fun c => (c.1, some c.2)) := by
  decide +kernel

theorem vorbisComments_names : ∀ k ∈ ItemKey.all, (mapKey .vorbisComments k).map code = vorbisCommentsNames.lookup k := by
  decide +kernel

theorem riffInfo_codes : ((mapOf .riffInfo).map fun rows => coded (entries rows)) = some ((riffInfoCodes).map fun c => (c.1, some c.2)) := by
  decide +kernel

theorem riffInfo_names : ∀ k ∈ ItemKey.all, (mapKey .riffInfo k).map code = riffInfoNames.lookup k := by
  decide +kernel

theorem aiffText_codes : ((mapOf .aiffText).map fun rows => coded (entries rows)) = some ((aiffTextCodes).map fun c => (c.1, some c.2)) := by
  decide +kernel

theorem aiffText_names : ∀ k ∈ ItemKey.all, (mapKey .aiffText k).map code = aiffTextNames.lookup k := by
  decide +kernel

theorem codes_eq (t : TagType) : ((mapOf t).map fun rows => coded (entries rows)).getD [] =
    (codes t).map fun c => (c.1, some c.2) := by
  cases t
  · rw [ape_codes]; rfl
  · rfl
  · rw [id3v2_codes]; rfl
  · rw [mp4Ilst_codes]; rfl
  · rw [vorbisComments_codes]; rfl
  · rw [riffInfo_codes]; rfl
  · rw [aiffText_codes]; rfl

theorem names_eq (t : TagType) (k : ItemKey) : (mapKey t k).map code = (names t).lookup k := by
  cases t
  · exact ape_names k k.mem_all
  · rfl
  · exact id3v2_names k k.mem_all
  · exact mp4Ilst_names k k.mem_all
  · exact vorbisComments_names k k.mem_all
  · exact riffInfo_names k k.mem_all
  · exact aiffText_names k k.mem_all

theorem lookup_coded (m : List (String × List ItemKey)) (s : Str) :
    lookup m s = ((coded m).find? fun e => e.1.beq (code s)).bind fun e => e.2 := by
  unfold lookup coded
  rw [List.find?_map]
  have : (fun e : String × List ItemKey => eqIc (str e.1) s) =
      (fun e : Nat × Option ItemKey => e.1.beq (code s)) ∘ fun e : String × List ItemKey => (code (str e.1), e.2.head?) := by
    funext e
    rw [Bool.eq_iff_iff, ← code_eq_iff]
    simp [Nat.beq_eq]
  rw [this]
  cases List.find? _ m <;> rfl

/-- Reading a format key by its number. -/
theorem fromKey_codes (t : TagType) (s : Str) :
    fromKey t s = ((codes t).find? fun e => e.1.beq (code s)).map fun e => e.2 := by
  have h := codes_eq t
  unfold fromKey
  cases hr : mapOf t with
  | none =>
    rw [hr] at h
    have : codes t = [] := by simpa using h.symm
    rw [this]
    rfl
  | some rows =>
    rw [hr] at h
    simp only [Option.map_some, Option.getD_some] at h
    rw [Option.bind_some, lookup_coded, h, List.find?_map]
    have : ((fun e : Nat × Option ItemKey => e.1.beq (code s)) ∘ fun c : Nat × ItemKey => (c.1, some c.2)) =
        fun e => e.1.beq (code s) := rfl
    rw [this]
    cases List.find? _ (codes t) <;> rfl

end Lofty.Item
