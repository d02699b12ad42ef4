import Verif.Model.Ziggurat

/-!
# The tables of c/ziggurat_constants.h

The constants of `rng_standard_normal` as they stand in the source.  A decimal constant of the source is rounded to a double by the compiler; the tables below have
the decimal digits, and `zigTab` applies the rounding.
-/

set_option autoImplicit false

namespace Moo

/-- `ki_double`, c/ziggurat_constants.h:66-152. -/
def zigKLit : List ℕ := [
  0x000EF33D8025EF6A, 0x0000000000000000, 0x000C08BE98FBC6A8, 0x000DA354FABD8142,
  0x000E51F67EC1EEEA, 0x000EB255E9D3F77E, 0x000EEF4B817ECAB9, 0x000F19470AFA44AA,
  0x000F37ED61FFCB18, 0x000F4F469561255C, 0x000F61A5E41BA396, 0x000F707A755396A4,
  0x000F7CB2EC28449A, 0x000F86F10C6357D3, 0x000F8FA6578325DE, 0x000F9724C74DD0DA,
  0x000F9DA907DBF509, 0x000FA360F581FA74, 0x000FA86FDE5B4BF8, 0x000FACF160D354DC,
  0x000FB0FB6718B90F, 0x000FB49F8D5374C6, 0x000FB7EC2366FE77, 0x000FBAECE9A1E50E,
  0x000FBDAB9D040BED, 0x000FC03060FF6C57, 0x000FC2821037A248, 0x000FC4A67AE25BD1,
  0x000FC6A2977AEE31, 0x000FC87AA92896A4, 0x000FCA325E4BDE85, 0x000FCBCCE902231A,
  0x000FCD4D12F839C4, 0x000FCEB54D8FEC99, 0x000FD007BF1DC930, 0x000FD1464DD6C4E6,
  0x000FD272A8E2F450, 0x000FD38E4FF0C91E, 0x000FD49A9990B478, 0x000FD598B8920F53,
  0x000FD689C08E99EC, 0x000FD76EA9C8E832, 0x000FD848547B08E8, 0x000FD9178BAD2C8C,
  0x000FD9DD07A7ADD2, 0x000FDA9970105E8C, 0x000FDB4D5DC02E20, 0x000FDBF95C5BFCD0,
  0x000FDC9DEBB99A7D, 0x000FDD3B8118729D, 0x000FDDD288342F90, 0x000FDE6364369F64,
  0x000FDEEE708D514E, 0x000FDF7401A6B42E, 0x000FDFF46599ED40, 0x000FE06FE4BC24F2,
  0x000FE0E6C225A258, 0x000FE1593C28B84C, 0x000FE1C78CBC3F99, 0x000FE231E9DB1CAA,
  0x000FE29885DA1B91, 0x000FE2FB8FB54186, 0x000FE35B33558D4A, 0x000FE3B799D0002A,
  0x000FE410E99EAD7F, 0x000FE46746D47734, 0x000FE4BAD34C095C, 0x000FE50BAED29524,
  0x000FE559F74EBC78, 0x000FE5A5C8E41212, 0x000FE5EF3E138689, 0x000FE6366FD91078,
  0x000FE67B75C6D578, 0x000FE6BE661E11AA, 0x000FE6FF55E5F4F2, 0x000FE73E5900A702,
  0x000FE77B823E9E39, 0x000FE7B6E37070A2, 0x000FE7F08D774243, 0x000FE8289053F08C,
  0x000FE85EFB35173A, 0x000FE893DC840864, 0x000FE8C741F0CEBC, 0x000FE8F9387D4EF6,
  0x000FE929CC879B1D, 0x000FE95909D388EA, 0x000FE986FB939AA2, 0x000FE9B3AC714866,
  0x000FE9DF2694B6D5, 0x000FEA0973ABE67C, 0x000FEA329CF166A4, 0x000FEA5AAB32952C,
  0x000FEA81A6D5741A, 0x000FEAA797DE1CF0, 0x000FEACC85F3D920, 0x000FEAF07865E63C,
  0x000FEB13762FEC13, 0x000FEB3585FE2A4A, 0x000FEB56AE3162B4, 0x000FEB76F4E284FA,
  0x000FEB965FE62014, 0x000FEBB4F4CF9D7C, 0x000FEBD2B8F449D0, 0x000FEBEFB16E2E3E,
  0x000FEC0BE31EBDE8, 0x000FEC2752B15A15, 0x000FEC42049DAFD3, 0x000FEC5BFD29F196,
  0x000FEC75406CEEF4, 0x000FEC8DD2500CB4, 0x000FECA5B6911F12, 0x000FECBCF0C427FE,
  0x000FECD38454FB15, 0x000FECE97488C8B3, 0x000FECFEC47F91B7, 0x000FED1377358528,
  0x000FED278F844903, 0x000FED3B10242F4C, 0x000FED4DFBAD586E, 0x000FED605498C3DD,
  0x000FED721D414FE8, 0x000FED8357E4A982, 0x000FED9406A42CC8, 0x000FEDA42B85B704,
  0x000FEDB3C8746AB4, 0x000FEDC2DF416652, 0x000FEDD171A46E52, 0x000FEDDF813C8AD3,
  0x000FEDED0F909980, 0x000FEDFA1E0FD414, 0x000FEE06AE124BC4, 0x000FEE12C0D95A06,
  0x000FEE1E579006E0, 0x000FEE29734B6524, 0x000FEE34150AE4BC, 0x000FEE3E3DB89B3C,
  0x000FEE47EE2982F4, 0x000FEE51271DB086, 0x000FEE59E9407F41, 0x000FEE623528B42E,
  0x000FEE6A0B5897F1, 0x000FEE716C3E077A, 0x000FEE7858327B82, 0x000FEE7ECF7B06BA,
  0x000FEE84D2484AB2, 0x000FEE8A60B66343, 0x000FEE8F7ACCC851, 0x000FEE94207E25DA,
  0x000FEE9851A829EA, 0x000FEE9C0E13485C, 0x000FEE9F557273F4, 0x000FEEA22762CCAE,
  0x000FEEA4836B42AC, 0x000FEEA668FC2D71, 0x000FEEA7D76ED6FA, 0x000FEEA8CE04FA0A,
  0x000FEEA94BE8333B, 0x000FEEA950296410, 0x000FEEA8D9C0075E, 0x000FEEA7E7897654,
  0x000FEEA678481D24, 0x000FEEA48AA29E83, 0x000FEEA21D22E4DA, 0x000FEE9F2E352024,
  0x000FEE9BBC26AF2E, 0x000FEE97C524F2E4, 0x000FEE93473C0A3A, 0x000FEE8E40557516,
  0x000FEE88AE369C7A, 0x000FEE828E7F3DFD, 0x000FEE7BDEA7B888, 0x000FEE749BFF37FF,
  0x000FEE6CC3A9BD5E, 0x000FEE64529E007E, 0x000FEE5B45A32888, 0x000FEE51994E57B6,
  0x000FEE474A0006CF, 0x000FEE3C53E12C50, 0x000FEE30B2E02AD8, 0x000FEE2462AD8205,
  0x000FEE175EB83C5A, 0x000FEE09A22A1447, 0x000FEDFB27E349CC, 0x000FEDEBEA76216C,
  0x000FEDDBE422047E, 0x000FEDCB0ECE39D3, 0x000FEDB964042CF4, 0x000FEDA6DCE938C9,
  0x000FED937237E98D, 0x000FED7F1C38A836, 0x000FED69D2B9C02B, 0x000FED538D06AE00,
  0x000FED3C41DEA422, 0x000FED23E76A2FD8, 0x000FED0A732FE644, 0x000FECEFDA07FE34,
  0x000FECD4100EB7B8, 0x000FECB708956EB4, 0x000FEC98B61230C1, 0x000FEC790A0DA978,
  0x000FEC57F50F31FE, 0x000FEC356686C962, 0x000FEC114CB4B335, 0x000FEBEB948E6FD0,
  0x000FEBC429A0B692, 0x000FEB9AF5EE0CDC, 0x000FEB6FE1C98542, 0x000FEB42D3AD1F9E,
  0x000FEB13B00B2D4B, 0x000FEAE2591A02E9, 0x000FEAAEAE992257, 0x000FEA788D8EE326,
  0x000FEA3FCFFD73E5, 0x000FEA044C8DD9F6, 0x000FE9C5D62F563B, 0x000FE9843BA947A4,
  0x000FE93F471D4728, 0x000FE8F6BD76C5D6, 0x000FE8AA5DC4E8E6, 0x000FE859E07AB1EA,
  0x000FE804F690A940, 0x000FE7AB488233C0, 0x000FE74C751F6AA5, 0x000FE6E8102AA202,
  0x000FE67DA0B6ABD8, 0x000FE60C9F38307E, 0x000FE5947338F742, 0x000FE51470977280,
  0x000FE48BD436F458, 0x000FE3F9BFFD1E37, 0x000FE35D35EEB19C, 0x000FE2B5122FE4FE,
  0x000FE20003995557, 0x000FE13C82788314, 0x000FE068C4EE67B0, 0x000FDF82B02B71AA,
  0x000FDE87C57EFEAA, 0x000FDD7509C63BFD, 0x000FDC46E529BF13, 0x000FDAF8F82E0282,
  0x000FD985E1B2BA75, 0x000FD7E6EF48CF04, 0x000FD613ADBD650B, 0x000FD40149E2F012,
  0x000FD1A1A7B4C7AC, 0x000FCEE204761F9E, 0x000FCBA8D85E11B2, 0x000FC7D26ECD2D22,
  0x000FC32B2F1E22ED, 0x000FBD6581C0B83A, 0x000FB606C4005434, 0x000FAC40582A2874,
  0x000F9E971E014598, 0x000F89FA48A41DFC, 0x000F66C5F7F0302C, 0x000F1A5A4B331C4A]

/-- `wi_double`, c/ziggurat_constants.h:154-282, times `10^37`. -/
def zigWLit : List ℕ := [
  8683627060801306166770, 477933017572773682428, 635435241740526230246, 745487048124769627714,
  832936681579309972857, 906806040505948228243, 971486007656776183958, 1029475031424101921080,
  1082343028844768398380, 1131147019610903079450, 1176635945702292114110, 1219361727871436332800,
  1259743991463709278640, 1298109988626403154160, 1334720373682412275470, 1369786484257120327970,
  1403482300124238206590, 1435952945205694302700, 1467320874236442190830, 1497690466839103674250,
  1527151500359619797500, 1555781816946076394840, 1583649400929088539890, 1610814017527492793250,
  1637328520396985320120, 1663239905842083527780, 1688590170867659640150, 1713417017655966071840,
  1737754436586485933100, 1761633192300099598320, 1785081231697672729270, 1808124028579915226740,
  1830784876482675017760, 1853085138861801893860, 1875044463937388168490, 1896680970077475962120,
  1918011406483861980290, 1939051293062510370690, 1959815042662882440370, 1980316068312817397360,
  2000566877627333001980, 2020579156207165388080, 2040363841548021183130, 2059931188740370631440,
  2079290829041401973110, 2098451822237035166900, 2117422703576034187690, 2136211525944986810220,
  2154825897858145809260, 2173273017756436749900, 2191559705042727085190, 2209692428223531759950,
  2227677330478955349480, 2245520252941435523810, 2263226755928567865660, 2280802138345017067820,
  2298251455442468390610, 2315579535104080370080, 2332790992800435611280, 2349890245347095509380,
  2366881523579160374680, 2383768884045424349810, 2400556219813506273490, 2417247270467502521750,
  2433845631371102864000, 2450354762261495398780, 2466777995232704981580, 2483118542161087677690,
  2499379501620452423750, 2515563865329657864390, 2531674524171358269830, 2547714273816944173030,
  2563685819989396837490, 2579591783392867235000, 2595434704335170701460, 2611217047067019390970,
  2626941203859725646230, 2642609498841189512860, 2658224191608306802920, 2673787480632363293610,
  2689301506472615917770, 2704768354811995187940, 2720190059327732066550, 2735568604408679086860,
  2750905927730166645710, 2766203922696390321830, 2781464440759544101030, 2796689293624230053090,
  2811880255345020743290, 2827039064324479230590, 2842167425218406065200, 2857267010754601492890,
  2872339463470979943810, 2887386397378481918150, 2902409399553842332300, 2917410031666945532590,
  2932389831447181639650, 2947350314092934896110, 2962292973628066477920, 2977219284209028911150,
  2992130701386013070810, 3007028663321331029930, 3021914591968061519710, 3036789894211801844270,
  3051655962978219223810, 3066514178308954517440, 3081365908408297170320, 3096212510662922533060,
  3111055332636892968310, 3125895713043998927840, 3140734982699446172030, 3155574465452800640310,
  3170415479104028525450, 3185259336304406488710, 3200107345444011378860, 3214960811527447049010,
  3229821037039415575380, 3244689322801697780770, 3259566968823078383400, 3274455275143706718020,
  3289355542675369678510, 3304269074039128385890, 3319197174401752336520, 3334141152312372459180,
  3349102320540778454120, 3364081996918765079480, 3379081505185949799940, 3394102175841489142820,
  3409145347003126037130, 3424212365275018160580, 3439304586625831339200, 3454423377278584016040,
  3469570114613783533330, 3484746188087413707000, 3499953000165380998130, 3515191967276074409750,
  3530464520782740090540, 3545772107977435721600, 3561116193098388434150, 3576498258372650510350,
  3591919805086029949940, 3607382354682351378390, 3622887449894191519040, 3638436655907344385460,
  3654031561561369957660, 3669673780588700900210, 3685364952894914014560, 3701106745882898349520,
  3716900855823822977920, 3732749009277943526140, 3748652964568488688820, 3764614513312028691310,
  3780635482008960376510, 3796717733697944259240, 3812863169678377382380, 3829073731305243175070,
  3845351401860959558580, 3861698208509149271190, 3878116224335587211640, 3894607570481926206740,
  3911174418378205420600, 3927818992080541532700, 3944543570720877114460, 3961350491076135429830,
  3978242150264682594740, 3995221008578565024440, 4012289592460629074510, 4029450497636327923930,
  4046706392410749951150, 4064060021142250387230, 4081514207904938734800, 4099071860353266434470,
  4116735973803025701700, 4134509635544235998780, 4152396029402688338910, 4170398440568315874980,
  4188520260710112295720, 4206764993399015109780, 4225136259862049373200, 4243637805093077961370,
  4262273504347798099170, 4281047370053116663970, 4299963559163832301610, 4319026381002629446170,
  4338240305622790804110, 4357609972736849005530, 4377140201258587470080, 4396835999510521374230,
  4416702576154203484350, 4436745351906567266040, 4456969972112043066740, 4477382320247533873120,
  4497988532445549680090, 4518795013130058762780, 4539808451870034009470, 4561035841567422063840,
  4582484498109566670520, 4604162081631152814280, 4626076619547845677540, 4648236531543207377800,
  4670650656712630590810, 4693328283093328906970, 4716279179838351297660, 4739513632325867151650,
  4763042480533137376630, 4786877161048722842470, 4811029753147417205380, 4835513029411525151620,
  4860340511450811954020, 4885526531353603432800, 4911086299595269558620, 4937035980240334547280,
  4963392774403987256190, 4990175013091822457540, 5017402260718089460110, 5045095430818727486370,
  5073276915733542070580, 5101970732341561841490, 5131202686306783732000, 5161000557743228245690,
  5191394311757698598730, 5222416338000234287600, 5254101724177597326970, 5286488569504945114820,
  5319618345338400375350, 5353536311816496881450, 5388292001334053201600, 5423939782201712340730,
  5460539519074780411660, 5498157350892814107030, 5536866612467876003740, 5576748932926576478360,
  5617895553555416658300, 5660408920082422167390, 5704404621291389084170, 5750013768919895236840,
  5797385945724593650140, 5846692893455479002010, 5898133176477899426850, 5951938149641444155320,
  6008379696271908322340, 6067780409333448513940, 6130527208725281591230, 6197089894581625553870,
  6268046963301284394150, 6344122407127505986270, 6426239659548055409450, 6515603317344993568810,
  6613827885097664151450, 6723150462505586629130, 6846803417564258758560, 6989718336387619954150,
  7159994934830664215600, 7372424301798798907220, 7658936370805572754820, 8113849337656484185650]

/-- `fi_double`, c/ziggurat_constants.h:284-412, times `10^23`. -/
def zigFLit : List ℕ := [
  100000000000000000000000, 97710170126767159626300, 95987909180010666521100, 94519895344229964973000,
  93206007595923046071800, 91999150503934701284000, 90872644005213087936600, 89809592189834341891000,
  88798466075583337708800, 87830965580891739996600, 86900868803685704655500, 86003362119633153248800,
  85134625845867795135300, 84291565311220417733300, 83471629298688343467900, 82672683394622137331700,
  81892919160370236664200, 81130787431265627418500, 80384948317096427405900, 79654233042295896627400,
  78937614356602459064800, 78234183265480250479800, 77543130498118717497400, 76863731579848626474000,
  76195334683679538656500, 75537350650709611521400, 74889244721915682045900, 74250529634015105529000,
  73620759812686265011200, 72999526456147623143500, 72386453346863022240100, 71781193263072196053500,
  71183424887824842120000, 70592850133275431012700, 70009191813651161506700, 69432191612611671160900,
  68861608300467180843200, 68297216164499485735500, 67738803621877352600900, 67186171989708209917300,
  66639134390875010005600, 66097514777666310781300, 65561147057969726414900, 65029874311081670157400,
  64503548082082229342400, 63982027745305658506000, 63465179928762360805900, 62952877992483669000700,
  62445001554702650459200, 61941436060583432432500, 61442072388891388889900, 60946806492577343394900,
  60455539069746777602900, 59968175261912526341500, 59484624376798744815900, 59004799633282600801500,
  58528617926337145327400, 58055999610079089823200, 57586868297235371816400, 57121150673525322716300,
  56658776325616444502500, 56199677581452434083100, 55743789361876594501400, 55291049042583229056200,
  54841396325526581279100, 54394773119002626238200, 53951123425695213242600, 53510393238045761421500,
  53072530440366205706200, 52637484717168447900800, 52205207467232184193100, 51775651722975635227200,
  51348772074732695891400, 50924524599574794159200, 50502866794346812362400, 50083757512614868190300,
  49667156905248971421300, 49253026364386853774800, 48841328470545802842300, 48432026942668332525300,
  48025086590904675354400, 47620473271950586324800, 47218153846773019966000, 46818096140569359642200,
  46420268904817435506900, 46024641781284286734500, 45631185267871643418400, 45239870686184852077700,
  44850670150720306494900, 44463556539573939607700, 44078503466580398750800, 43695485254798555052600,
  43314476911265226144500, 42935454102944142773500, 42558393133802197017000, 42183270922949589465400,
  41810064983784822612000, 41438753404089112564200, 41069314827018815750000, 40701728432947337221700,
  40335973922111451051000, 39972031498019722217700, 39609881851583245149200, 39249506145931561951200,
  38890886001878871569600, 38534003484007728346200, 38178841087339365767400, 37825381724561918384000,
  37473608713789113844300, 37123505766823949869600, 36775056977903258781400, 36428246812900405560100,
  36083060098964803152900, 35739482014578050073100, 35397498080007677723200, 35057094148140610645500,
  34718256395679364390000, 34380971314685071504900, 34045225704452186654700, 33711006663700604502100,
  33378301583071845470800, 33047098137916358640000, 32717384281360140097000, 32389148237639109329000,
  32062378495690535551400, 31737063802991360983400, 31413193159633717721500, 31090755812628650955900,
  30769741250429205603500, 30450139197664999324300, 30131939610080304969800, 29815132669668548137700,
  29499708779996181018400, 29185658561709520997200, 28872972848218292352100, 28561642681550175604200,
  28251659308370757894800, 27943014176163794015700, 27635698929566832049400, 27329705406857707217200,
  27025025636587546307200, 26721651834356147103800, 26419576399726119042600, 26118791913272121352200,
  25819291133761923529000, 25521066995466196170000, 25224112605594217750800, 24928421241852852241500,
  24633986350126382824900, 24340801542275031232900, 24048860594050058825400, 23758157443123809060600,
  23468686187233001039200, 23180441082433872468400, 22893416541468034064400, 22607607132238027869400,
  22323007576391748485500, 22039612748015199872300, 21757417672433113087200, 21476417525117358353600,
  21196607630703018232400, 20917983462112507697700, 20640540639788079735300, 20364274931033490845200,
  20089182249465659113600, 19815258654577513897100, 19542500351413430448300, 19270903690358917592600,
  19000465167046498571300, 18731181422380030476800, 18463049242679926975600, 18196065559952251389200,
  17930227452284758227200, 17665532144373485845500, 17401977008183855399900, 17139559563750575432700,
  16878277480121128828500, 16618128576448190636400, 16359110823236558407400, 16101222343751100951600,
  15844461415592428488200, 15588826472447919746500, 15334316106026285586600, 15080929068184567576300,
  14828664273257455286100, 14577520800599402806000, 14327497897351346156600, 14078594981444469969000,
  13830811644855073305700, 13584147657125375530100, 13338602969166915568300, 13094177717364435809000,
  12850872227999957098100, 12608687022018588708100, 12367622820159657193200, 12127680548479030653300,
  11888861344291005994700, 11651166562561086903500, 11414597782783848789500, 11179156816383808981100,
  10944845714681179782400, 10711666777468380196100, 10479622562248706862900, 10248715894193524689200,
  10018949876881001748200, 9790327903886246463380, 9562853671300899915940, 9336531191269101248590,
  9111364806637375912680, 8887359206827588620210, 8664519445055807178590, 8442850957035347159160,
  8222359581320290433660, 8003051581466306962920, 7784933670209612244230, 7568013035892717788040,
  7352297371398132386220, 7137794905889040253390, 6924514439700675538790, 6712465382778849687370,
  6501657797124289761560, 6292102443775814124560, 6083810834953987806140, 5876795292093373729300,
  5671069010620290173910, 5466646132488892084740, 5263541827679218965130, 5061772386094778170000,
  4861355321586854211220, 4662309490193038141740, 4464655225129446347590, 4268414491647445907500,
  4073611065594093944010, 3880270740452614747220, 3688421568856730531350, 3498094146171612517370,
  3309321945857857799610, 3122141719192030040460, 2936593975813335880010, 2752723566960311313290,
  2570580400854891034430, 2390220330579587854070, 2211706270730885021130, 2035109623004451029350,
  1860512127572462245940, 1688008315254314190000, 1517708830793530923320, 1349745060173986738180,
  1184275785790787904880, 1021497143970145904390, 861658276939872638800, 705087547137322242369,
  552240329925099155545, 403797259336302356153, 260907274610215926189, 126028593049859797236]

/-- `ziggurat_nor_r`, c/ziggurat_constants.h:1264, times `10^28`. -/
def zigRLit : ℕ := 36541528853610087963519472518

/-- `ziggurat_nor_inv_r`, c/ziggurat_constants.h:1265-1266, times `10^29`. -/
def zigInvLit : ℕ := 27366123732975827203338247596

/-- The tables that `rng_standard_normal` uses, c/rng.c:71-99 and c/ziggurat_constants.h; `rnd` is the rounding to double precision.  The multiplication by `2^52` and the division by
`2^52` are the change of scale of `ZigTable`. -/
noncomputable def zigTab (rnd : ℝ → ℝ) : ZigTable where
  w i := 2 ^ 52 * rnd ((zigWLit.getD i 0 : ℝ) / 10 ^ 37)
  k i := (zigKLit.getD i 0 : ℝ) / 2 ^ 52
  f i := rnd ((zigFLit.getD i 0 : ℝ) / 10 ^ 23)
  r := rnd ((zigRLit : ℝ) / 10 ^ 28)
  invR := rnd ((zigInvLit : ℝ) / 10 ^ 29)

end Moo
