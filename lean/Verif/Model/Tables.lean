/-!
# `src/histogram_bins.rs`: the histogram tables

Generated digit for digit from the source: each entry is the literal's 36-decimal value times `10 ^ 36`.
-/

namespace Verif

/-- `ENERGIES` (histogram_bins.rs:25-1026), scaled by `10 ^ 36`. -/
def energiesN : List Nat := [
  118604181294802408330460116465,
  121366827574167330221758436329,
  124193824151992231012031240797,
  127086669939281845165938186586,
  130046898761164506108813478449,
  133076080170144241639272435218,
  136175820278300083164500495873,
  139347762608868109276901185375,
  142593588967656765790703522929,
  145915020334765644933593814470,
  149313817777069356649625423046,
  152791783381960179872757765729,
  156350761212839396451892742985,
  159992638286859704144248807423,
  163719345575453265876128940495,
  167532859028152318020234634241,
  171435200620267652772479318422,
  175428439424965355178869875000,
  179514692710315368466645409747,
  183696127061899357968153341687,
  187974959531556132442641480519,
  192353458812899659278390402002,
  196833946444205190676665097847,
  201418798039320321928522406624,
  206110444547249306096258587503,
  210911373541070649053865348685,
  215824130536885966504811475673,
  220851320343482467425502203430,
  225995608443437459329495827290,
  231259722406395123632129166326,
  236646453335256529655942180079,
  242158657346061866420800076302,
  247799257082341859659361518395,
  253571243264737311415610949636,
  259477676276724477811289537241,
  265521687787266133463828093886,
  271706482411267039829219508210,
  278035339408704514400048901646,
  284511614423327614638916391657,
  291138741261875572311867803321,
  297920233714716721277711904831,
  304859687418913929176766258733,
  311960781764676327227389217994,
  319227281846218118710857905573,
  326663040458069387164148763766,
  334272000137866037608284919269,
  342058195256749448038598041336,
  350025754158434145904939737912,
  358178901348111515076546966518,
  366521959732342609830570579615,
  375059352911114010589602261320,
  383795607523297042340776168146,
  392735355646725159801485550634,
  401883337254183342158645299638,
  411244402726609375318180547923,
  420823515424823416743892916594,
  430625754321172594639037306194,
  440656316692470246383449674135,
  450920520875653288033645853597,
  461423809087644204768763507574,
  472171750310878688237242479381,
  483170043246059843707355604958,
  494424519333682790447079356128,
  505941145845936529773804925941,
  517726029050642630075797744060,
  529785417448864496541981357336,
  542125705087956677426859909003,
  554753434951769766206124395030,
  567675302429821750185053984977,
  580898158867295254637172410156,
  594429015197695144078675420080,
  608275045660152243544348607540,
  622443591603289274270783236476,
  636942165377709199672849344626,
  651778454319138754807718035000,
  666960324824355964881119826493,
  682495826522059998624561427683,
  698393196540884901052533267202,
  714660863876842606370518289766,
  731307453862482643507862255933,
  748341792740160555318551689752,
  765772912341822404965114602649,
  783610054877810681185385400377,
  801862677837200514031901210643,
  820540459002286815143616029861,
  839653301579874826224259530549,
  859211339452084157642080663314,
  879224942549479419447925991615,
  899704722349328582768222730554,
  920661537501970945184556847224,
  942106499588191129262982302650,
  964050979010746688665058415357,
  986506611023098958088086048168,
  1009485301898570425036200451374,
  1032999235243230146092481211428,
  1057060878455775272560823209445,
  1081682989337934354241396207874,
  1106878622858805328842417455004,
  1132661138076786744085665444015,
  1159044205222719043190510689045,
  1186041812948024056834821562956,
  1213668275741675949195544532977,
  1241938241519922204241194001184,
  1270866699392818504598941069250,
  1300468987611642414110174614805,
  1330760801701442628150961165756,
  1361758202783003849199879552179,
  1393477626088681198648130260542,
  1425935889676567816725712839476,
  1459150203347653484720622754645,
  1493138177770693513556695027067,
  1527917833819604975101129860915,
  1563507612128393911579368226461,
  1599926382868596829684251260650,
  1637193455754532552882170998165,
  1675328590281523286081464749198,
  1714352006202676580664352387617,
  1754284394249653657667817156784,
  1795146927103153843485131707647,
  1836961270618989926851948382702,
  1879749595315561271486855601798,
  1923534588129000563250844274554,
  1968339464442051959706210181866,
  2014187980393203431043460879812,
  2061104445472488931676968010320,
  2109113735410706596417771893637,
  2158241305368863953152410231628,
  2208513203434824621315462830906,
  2259956084434374487415839866111,
  2312597224063946524700522561213,
  2366464533352565296559421800793,
  2421586573460623852284802695611,
  2477992570823418702472733590736,
  2535712432647373220035227903146,
  2594776762767239801794330253393,
  2655216877872661334638280938858,
  2717064824112675798127233828261,
  2780353394087045567516962643606,
  2845116144233276464026519136929,
  2911387412618755299602204406062,
  2979202337147167424535355861881,
  3048596874189139715284136214479,
  3119607817646763060515655366367,
  3192272818462181610625052682884,
  3266630404580687201257028010049,
  3342720001378660376082849192692,
  3420581952567501150770440040971,
  3500257541584341141412042158754,
  3581789013481115150765469665184,
  3665219597323418686767417321026,
  3750593529111139894137785799622,
  3837956075232978470220760597309,
  3927353556467251703893973913129,
  4018833372541833315707334589595,
  4112444027266085600489688156589,
  4208235154248234061559810759157,
  4306257543211734099082490384580,
  4406563166924702357955378334564,
  4509205208756532774457340129182,
  4614238090876433153841688905583,
  4721717503108786670614187980233,
  4831700432460599284106503303882,
  4944245193336827692712556747701,
  5059411458459365509496286072988,
  5177260290506426724274451067753,
  5297854174488644541903339946209,
  5421257050879567409543309530751,
  5547534349517697873819480763879,
  5676753024298216866575829409047,
  5808981588672951911097013660834,
  5944290151976951229028517387221,
  6082750456601522435443486075402,
  6224435916032892319191358737607,
  6369421653777092632003203886981,
  6517784543191387124560706722853,
  6669603248243559648811198264928,
  6824958265220599986245614276825,
  6983931965408849222283569485592,
  7146608638768426275463419711231,
  7313074538624825799803912118602,
  7483417927401605129669043270368,
  7657729123418223626134672399335,
  7836100548778107447128564444494,
  8018626778372005140319012106431,
  8205404590022868363194397112181,
  8396533015798748685759068932644,
  8592113394520842635211990701016,
  8792249425494794617995733543303,
  8997047223493286039440464119110,
  9206615375019709240087331658664,
  9421064995881911716146296653651,
  9640509790107467733683531407873,
  9865066110230990851430281363132,
  10094853018985705097394951768042,
  10329992352432302307957759368584,
  10570608784557752302091758467295,
  10816829893379344812963382960191,
  11068786228588054558973595431492,
  11326611380767868711406075321602,
  11590442052227190855421580517604,
  11860418129480239721315268375257,
  12136682757416759068438971702619,
  12419382415199222465928413638991,
  12708666993928185469505884319652,
  13004689876116424141101746148053,
  13307608017014425010960190776110,
  13617582027830037221449374640336,
  13934776260886811986481302605423,
  14259358896765678167257128394763,
  14591502033476535694239174800746,
  14931381777706936406116371152120,
  15279178338196048480461877727699,
  15635076121283940386343103146061,
  15999263828685969567391933487954,
  16371934557545327222887604490253,
  16753285902815233707847594746276,
  17143520062026766653676471130474,
  17542843942496537000194645194995,
  17951469271031536740785422567868,
  18369612706189898421486536572722,
  18797495953155615255967397780879,
  19235345881290003938442548236942,
  19683394644420517055963260055762,
  20141879803932031769335767035223,
  20611044454724887622703785594602,
  21091137354107066811210666190668,
  21582413053688642072622944079185,
  22085132034348247060187575563361,
  22599560844343743180092504152512,
  23125972240639466941071120120732,
  23664645333525650424495376245027,
  24215865734606237675815079701813,
  24779925708234186177694388653059,
  25357124326473732200352279031463,
  25947767627672395476844460771026,
  26552168778726613346382809388579,
  27170648241126757981272338282608,
  27803533940870454828136679181760,
  28451161442332761252133402352094,
  29113874126187554690087938569221,
  29792023371471674245353558618810,
  30485968741891396305808414890492,
  31196078176467629758123606409370,
  31922728184621816953283474083136,
  32666304045806871165537332846185,
  33427200013786603760828491926915,
  34205819525675012354737347664013,
  35002575415843413108186316096138,
  35817890134811148966555854888938,
  36652195973234189408773014973164,
  37505935291111398941377857996216,
  38379560752329783008141711464489,
  39273535564672513650807950114086,
  40188333725418334851139240404549,
  41124440272660852616765092548690,
  42082351542482340615598107591566,
  43062575432117342684890798354402,
  44065631669247025273619677854242,
  45092052087565327744573401291817,
  46142380908764328150285100038630,
  47217175031087868400207774310928,
  48317004324605986064801455004414,
  49442451933368276927125567477006,
  50594114584593655094962860729879,
  51772602905064263854612721660331,
  52978541744886445419033399462094,
  54212570508795670707301306290304,
  55475343495176977044128913130194,
  56767530242982172053890083107675,
  58089815886729520805036031116941,
  59442901519769512290285173872206,
  60827504566015229436632544279817,
  62244359160328928274111270901869,
  63694216537770926320032038869812,
  65177845431913878021870645262936,
  66696032482435591405914299123481,
  68249582652205999862456142768252,
  69839319654088497305033378381722,
  71466086387684261060568302603713,
  73130745386248261386170910203219,
  74834179274016051296690432703684,
  76577291234182246425742091044953,
  78361005487781077859417433462141,
  80186267783720051403190121064313,
  82054045900228683631943971121814,
  83965330157987483469458900309235,
  85921133945208419575856328975760,
  87922494254947939403693757398628,
  89970472234932860394404641191102,
  92066153750197099177136894621043,
  94210649958819113773331177519310,
  96405097901074667172439947027129,
  98650661102309911902434602648526,
  100948530189857142453507821144854,
  103299923524323016303314015651438,
  105706087845577512856522217621347,
  108168298933793326156889424982666,
  110687862285880548977867743332126,
  113266113807678568529448137613969,
  115904420522271905166084016158834,
  118604181294802525962160666406220,
  121366827574167590684389717026193,
  124193824151992238211811292458719,
  127086669939281861471322421230923,
  130046898761164241411017461480526,
  133076080170144107808066769038646,
  136175820278300378990757324437766,
  139347762608868258778216375759484,
  142593588967656785060703072964827,
  145915020334765516184585831815923,
  149313817777069353896768344469592,
  152791783381960505133409511380194,
  156350761212839241233105158634942,
  159992638286859695673919334879542,
  163719345575453096046023016008064,
  167532859028152316749685213359555,
  171435200620267849495881318233614,
  175428439424965370001946451949948,
  179514692710315570695761566710758,
  183696127061898990991128943761623,
  187974959531556139007146821739980,
  192353458812899842872781719371744,
  196833946444205197664686912695231,
  201418798039320121181713907354549,
  206110444547248883003301433980425,
  210911373541070864623750424904358,
  215824130536886407173702284723049,
  220851320343482470601875755633614,
  225995608443437445353452197593924,
  231259722406394649081920467104112,
  236646453335256267075728531246170,
  242158657346062369981887218983729,
  247799257082342112498696273803489,
  253571243264737362661104258521050,
  259477676276724219042724151051971,
  265521687787266113135037359782586,
  271706482411267593365250538894884,
  278035339408704256902032936338287,
  284511614423327632850124757624144,
  291138741261875262297809108247293,
  297920233714716762782326320291304,
  304859687418914261213681582418644,
  311960781764676338238817532300118,
  319227281846218454135905018276276,
  326663040458068738760427640599460,
  334272000137866051160812075337958,
  342058195256749798286721730988802,
  350025754158434117529336004892571,
  358178901348111123747325335031633,
  366521959732341853430148681525225,
  375059352911114409542120418095124,
  383795607523297816528889958576087,
  392735355646725136508079501140855,
  401883337254183362063919560114300,
  411244402726608526167650925486896,
  420823515424823013132693549920305,
  430625754321173467506489451750440,
  440656316692470686417065772744195,
  450920520875653263893206856849361,
  461423809087643755841301462794490,
  472171750310878656897023430971672,
  483170043246059887753068862181749,
  494424519333682213617642275949038,
  505941145845936550949628607298791,
  517726029050642137102622442057509,
  529785417448864494847915462827359,
  542125705087957276279153617792872,
  554753434951769756888761975233137,
  567675302429822303297568542035378,
  580898158867295235155414623307024,
  594429015197695150007906050859674,
  608275045660151684502603419701927,
  622443591603289228531004084743472,
  636942165377707989262767718230407,
  651778454319138075487294337051480,
  666960324824355968269251615510029,
  682495826522059320998203624242251,
  698393196540884864630116535266779,
  714660863876841905874270910459245,
  731307453862482586756654789894583,
  748341792740159022188917159468247,
  765772912341821624000737234183589,
  783610054877810751489120022483803,
  801862677837199646670163222239580,
  820540459002286836319439711218138,
  839653301579874021542959638964021,
  859211339452084195758563289757603,
  879224942549477550893244348628741,
  899704722349328658154155036186239,
  920661537501969067312512784440059,
  942106499588190216161465162514332,
  964050979010746753039562406684126,
  986506611023098061927227853118438,
  1009485301898570448753122974494545,
  1032999235243229133041076295285166,
  1057060878455775209880385112626300,
  1081682989337932150261667452184611,
  1106878622858804405576504947816829,
  1132661138076784465567037329947198,
  1159044205222717859038450427533462,
  1186041812948024094104271242144932,
  1213668275741674714221507436207048,
  1241938241519922273697895676036751,
  1270866699392817367880725853979129,
  1300468987611642359900065990530038,
  1330760801701439885458277956331585,
  1361758202783002434654857637497116,
  1393477626088681286739556774989524,
  1425935889676566278513880625666843,
  1459150203347653589752708214177801,
  1493138177770692021084641964989714,
  1527917833819604888703769240976271,
  1563507612128390731817684233817545,
  1599926382868596848318976100244981,
  1637193455754529279946862807548769,
  1675328590281521595403702029614124,
  1714352006202676543394902708428162,
  1754284394249651856875771294141941,
  1795146927103153646973487944649150,
  1836961270618987958347378963708252,
  1879749595315561390071468217399797,
  1923534588128996422953798095534239,
  1968339464442049862452632780218664,
  2014187980393199097622902726811844,
  2061104445472486824258995241621051,
  2109113735410706423623050653759492,
  2158241305368861686492243379120737,
  2208513203434824597598540307785697,
  2259956084434372285130177004930374,
  2312597224063946653449530543866786,
  2366464533352560448142831717177614,
  2421586573460621314574092721727538,
  2477992570823418522901748772824249,
  2535712432647370916105611371449413,
  2594776762767239588342027545309065,
  2655216877872658420844942384064780,
  2717064824112676042072722637499282,
  2780353394087039641674463652520899,
  2845116144233276328501247576241440,
  2911387412618749587212008123060514,
  2979202337147164158376311249298851,
  3048596874189139684790950113324470,
  3119607817646760129781657866487876,
  3192272818462181614013184471900786,
  3266630404580684026577541700930851,
  3342720001378660186347469007728250,
  3420581952567494296579830859172944,
  3500257541584337814266625343861961,
  3581789013481107442765649651050808,
  3665219597323415064854534861638058,
  3750593529111139867032731487483943,
  3837956075232974370581295886495354,
  3927353556467251365080795011408554,
  4018833372541829283830505659125265,
  4112444027266085044836074757768074,
  4208235154248225577677811060084423,
  4306257543211729904575335581284889,
  4406563166924702852622619531075543,
  4509205208756528193703161377925426,
  4614238090876432787923455691725394,
  4721717503108781473220023627845876,
  4831700432460598985950905870367933,
  4944245193336817799367732817472643,
  5059411458459365726336720570088801,
  5177260290506416166855796490153807,
  5297854174488639093787423206549647,
  5421257050879567558621108247507436,
  5547534349517691497355453833506544,
  5676753024298217611964822992831614,
  5808981588672946713702849308447185,
  5944290151976951500079060508596740,
  6082750456601510556653433781093554,
  6224435916032886213777874928609890,
  6369421653777079458946808188102295,
  6517784543191380321192074376313030,
  6669603248243559899532950652201180,
  6824958265220592776301167248220736,
  6983931965408848863141599849768681,
  7146608638768418841902274607491563,
  7313074538624826301247416893147602,
  7483417927401590438729606091783353,
  7657729123418216890528675833138550,
  7836100548778106647529462236434483,
  8018626778371996249861197725294915,
  8205404590022868580034831609282264,
  8396533015798740215429596389640210,
  8592113394520841523904763903374260,
  8792249425494775075251574492085638,
  8997047223493285714179812373458844,
  9206615375019691974167734827005916,
  9421064995881902812135955116445984,
  9640509790107467530395624066841265,
  9865066110230981052953147525386157,
  10094853018985704487531229744945449,
  10329992352432291330410762952851655,
  10570608784557745593590816213236394,
  10816829893379327140467971446469164,
  11068786228588043188403311489764747,
  11326611380767849859840801229893259,
  11590442052227178590384504275334621,
  11860418129480240073680974433045776,
  12136682757416746708534205367868708,
  12419382415199216665446790841542679,
  12708666993928172811445520551387744,
  13004689876116417093787624992273777,
  13307608017014405793476683470544231,
  13617582027830024346548576374971162,
  13934776260886811566352960767289915,
  14259358896765663218819675250870205,
  14591502033476535030165344153374463,
  14931381777706920210846419649897143,
  15279178338196041514462919508332561,
  15635076121283914690751615239605599,
  15999263828685959809572381118414341,
  16371934557545299304681662988514290,
  16753285902815214652994413313535915,
  17143520062026768036034241049492266,
  17542843942496517267715105958814092,
  17951469271031538638139224417500373,
  18369612706189881318197265613889613,
  18797495953155603926054695307357179,
  19235345881289975938921443798790278,
  19683394644420499491888065790590190,
  20141879803932002251931621117364557,
  20611044454724867375228214427806961,
  21091137354107065970953982514402014,
  21582413053688617732284171779610915,
  22085132034348236435006285205417953,
  22599560844343721116578294072496647,
  23125972240639454391430973601018195,
  23664645333525614889769173032618710,
  24215865734606212278379189228871837,
  24779925708234187831102701693453128,
  25357124326473721304120445552143792,
  25947767627672410628569821255950956,
  26552168778726584208449423840647796,
  27170648241126759553365488386589277,
  27803533940870425039681990142526047,
  28451161442332763285012475762414397,
  29113874126187523627695696859518648,
  29792023371471659798359610249463003,
  30485968741891411593059046936105005,
  31196078176467599563093102688071667,
  31922728184621829150557914545061067,
  32666304045806837663690203044097871,
  33427200013786600996112952088878956,
  34205819525674974190820876174257137,
  35002575415843395489901013206690550,
  35817890134811111724211230011860607,
  36652195973234165393694894419240882,
  37505935291111416884923812631313922,
  38379560752329740236366006911339355,
  39273535564672515385531426090892637,
  40188333725418294573028532568059745,
  41124440272660857387254651484909118,
  42082351542482299144865010021021590,
  43062575432117319862435067534534028,
  44065631669247047608184431055633468,
  45092052087565302753713325500939391,
  46142380908764352165363220592553262,
  47217175031087819936370664208880044,
  48317004324605991594232534680486424,
  49442451933368228300658131502132164,
  50594114584593653793920253747273819,
  51772602905064211975538768228943809,
  52978541744886420428173323671217076,
  54212570508795701607063222127180779,
  55475343495176916708278014311872539,
  56767530242982200405776893603615463,
  58089815886729463667581541130857659,
  59442901519769511531343653132353211,
  60827504566015162812409045045569655,
  62244359160328895097524792845433694,
  63694216537770853570066265092464164,
  65177845431913836171666787322465098,
  66696032482435635424522502034960780,
  68249582652205931232458624435821548,
  69839319654088488631415998497686815,
  71466086387684188419022746074915631,
  73130745386248266481921120885090204,
  74834179274015977245682051943731494,
  76577291234182207069203229821141576,
  78361005487781118516998901668557664,
  80186267783720011070869304603547789,
  82054045900228730903158691489807097,
  83965330157987405623742915850016288,
  85921133945208422177941542940970976,
  87922494254947844427583447668439476,
  89970472234932860611245075688202633,
  92066153750196999538957243203185499,
  94210649958819073224169926561444299,
  96405097901074723876213568019011291,
  98650661102309800121190619393019006,
  100948530189857096917016576753667323,
  103299923524322947998577149064658443,
  105706087845577514916506345343805151,
  108168298933793302629702282047219342,
  110687862285880483925737394201860297,
  113266113807678536762324483788688667,
  115904420522271844884443225964787416,
  118604181294802463186854879495513160,
  121366827574167487902023765400372213,
  124193824151992232573959995534096379,
  127086669939281748931136917235562578,
  130046898761164236857368337041407358,
  133076080170144078751448546427127440,
  136175820278300302446083946961152833,
  139347762608868191991362550652411301,
  142593588967656698107688839627371635,
  145915020334765443976721144281327724,
  149313817777069257619615427756798454,
  152791783381960505350249945877294522,
  156350761212839195479773479746654630,
  159992638286859639729087234627513681,
  163719345575453006924604437699599657,
  167532859028152236735564883929328062,
  171435200620267708115918026123836171,
  175428439424965193493832771309826057,
  179514692710315421075861763711145613,
  183696127061898806243078752231667750,
  187974959531556101710592088238627184,
  192353458812899752450320534080674406,
  196833946444205071246713600885414053,
  201418798039320029458210115080873948,
  206110444547248777835690702886495274,
  210911373541070701342903248587390408,
  215824130536886177322841717796109151,
  220851320343482399044532371590321418,
  225995608443437218104676844632194843,
  231259722406394585547673159453552216,
  236646453335256162775479538140643854,
  242158657346062233806094354804372415,
  247799257082341933822178248192358296,
  253571243264737233857886167243123055,
  259477676276724023018971365672769025,
  265521687787265869840069854035391472,
  271706482411267546961397556515294127,
  278035339408704118557835727187921293,
  284511614423327563461185718551860191,
  291138741261875111376866698265075684,
  297920233714716597983596102494630031,
  304859687418913505307926925524952821,
  311960781764676009508718834695173427,
  319227281846218235994427914192783646,
  326663040458068931748414343019248918,
  334272000137865954449978289630962536,
  342058195256749075774393986648647115,
  350025754158433899387858900809078477,
  358178901348110978464234221974038519,
  366521959732342250681824680214049295,
  375059352911114085582511279426398687,
  383795607523296777863208717462839559,
  392735355646725070588587414022185840,
  401883337254182959608073133495054208,
  411244402726609115106271019612904638,
  420823515424822824915196406436734833,
  430625754321172449223809053364675492,
  440656316692470351181754040226223879,
  450920520875652985903769831566023640,
  461423809087644132276295749761629850,
  472171750310878157730343218645430170,
  483170043246059000008330031050718389,
  494424519333682088717552005618927069,
  505941145845936413039112267142627388,
  517726029050642799766990265197819099,
  529785417448864093259430774196516722,
  542125705087955989114334443002007902,
  554753434951769208716143566562095657,
  567675302429821782013164011004846543,
  580898158867295566487598534877179191,
  594429015197694976535558453178964555,
  608275045660150448512126786226872355,
  622443591603288881586308889382053167,
  636942165377708313656057725893333554,
  651778454319139388672965651494450867,
  666960324824356076689468864060472697,
  682495826522058202101561619201675057,
  698393196540884830803008753719041124,
  714660863876841911945803076378069818,
  731307453862483636264357755862874910,
  748341792740159439389913131890352815,
  765772912341820766179978363652480766,
  783610054877810879858657244767528027,
  801862677837199999686390583519823849,
  820540459002288335987884693167870864,
  839653301579874056237429158500162885,
  859211339452082611956029722932726145,
  879224942549478138964502704766346142,
  899704722349328411823421447479631752,
  920661537501971216634899519704049453,
  942106499588190593463821187469875440,
  964050979010745323627418201795080677,
  986506611023098112234208656445844099,
  1009485301898570774881136458134278655,
  1032999235243230895520127887721173465,
  1057060878455774899364882912777829915,
  1081682989337931166673456573334988207,
  1106878622858804783746222710760775954,
  1132661138076785256600942375371232629,
  1159044205222720336223574122413992882,
  1186041812948024354312792638665996492,
  1213668275741672797352066481835208833,
  1241938241519922048183843799051828682,
  1270866699392817267266764247324317694,
  1300468987611644200441674001922365278,
  1330760801701440732003334233013447374,
  1361758202783000637481336525524966419,
  1393477626088681420313264425203669816,
  1425935889676566814543434702500235289,
  1459150203347656216124050843063741922,
  1493138177770692021084641964989714324,
  1527917833819602000389181739592459053,
  1563507612128391732753129872435238212,
  1599926382868596563824326040048617870,
  1637193455754532900314757171145174652,
  1675328590281522256333346376777626574,
  1714352006202674250090467467089183629,
  1754284394249651990449478944356087595,
  1795146927103154155247466405853629112,
  1836961270618991060032954010239336640,
  1879749595315560961594769651128444821,
  1923534588128994471389887621626257896,
  1968339464442050656955984777596313506,
  2014187980393200572137857307097874582,
  2061104445472491164537132135592401028,
  2109113735410707235473637410905212164,
  2158241305368858053981284683686681092,
  2208513203434824045956474947161041200,
  2259956084434372236557919677579775453,
  2312597224063949852279620245099067688,
  2366464533352561794288249075179919600,
  2421586573460618119213449972448870540,
  2477992570823419171688328788150101900,
  2535712432647371894489651822368614376,
  2594776762767244449037207232322543859,
  2655216877872658365333791152806952596,
  2717064824112671139744179527042433619,
  2780353394087041518645264659426175058,
  2845116144233275523589554723002947867,
  2911387412618755998749975333339534700,
  2979202337147165646769053637399338186,
  3048596874189135164101571717765182257,
  3119607817646759873042583421920426190,
  3192272818462182026877371754380874336,
  3266630404580689095439538505161181092,
  3342720001378659322455177971278317273,
  3420581952567490535699334941455163062,
  3500257541584339548990101320669054985,
  3581789013481109673620039757224731147,
  3665219597323422284773641877109184861,
  3750593529111140966847415256779640913,
  3837956075232968444765901949722319841,
  3927353556467250594863571677706204355,
  4018833372541829263013823947403579950,
  4112444027266091595151920046191662550,
  4208235154248227694040451751789078116,
  4306257543211724936327300383709371090,
  4406563166924703622839842864777892828,
  4509205208756530858238420478301122785,
  4614238090876440878673747647553682327,
  4721717503108782132414944499032571912,
  4831700432460590555194812623085454106,
  4944245193336819887974797893548384309,
  5059411458459363686301912821363657713,
  5177260290506427331536087876884266734,
  5297854174488642264861937292153015733,
  5421257050879559002964924729894846678,
  5547534349517691865116830740589648485,
  5676753024298218264220849960111081600,
  5808981588672954998742170573677867651,
  5944290151976949765355584531789645553,
  6082750456601504041032058012206107378,
  6224435916032889259952298743883147836,
  6369421653777084024738996959058567882,
  6517784543191395663086495915194973350,
  6669603248243562987340737890917807817,
  6824958265220582909194035892141982913,
  6983931965408848974163902312284335494,
  7146608638768420895814870164031162858,
  7313074538624837472866602183785289526,
  7483417927401595726166760869091376662,
  7657729123418208772022808261681348085,
  7836100548778111019032621697988361120,
  8018626778372000885042325535323470831,
  8205404590022885358280291256960481405,
  8396533015798741672597316210158169270,
  8592113394520829672273976029828190804,
  8792249425494782499868051672820001841,
  8997047223493286338680263725109398365,
  9206615375019714164750439522322267294,
  9421064995881906156682816799730062485,
  9640509790107454790586416493169963360,
  9865066110230982232565111189614981413,
  10094853018985709525168203981593251228,
  10329992352432313396093377377837896347,
  10570608784557752102273298078216612339,
  10816829893379310334466936183162033558,
  11068786228588049169729856657795608044,
  11326611380767856118723102554213255644,
  11590442052227201585878901823889464140,
  11860418129480246207663185487035661936,
  12136682757416727085342245118226855993,
  12419382415199223146373697090893983841,
  12708666993928172672667642473243176937,
  13004689876116444224862789269536733627,
  13307608017014411316836230980698019266,
  13617582027830009039348624355625361204,
  13934776260886819088113952602725476027,
  14259358896765670365880396275315433741,
  14591502033476565713954187231138348579,
  14931381777706921099024839350022375584,
  15279178338196025777051545446738600731,
  15635076121283923100691026775166392326,
  15999263828685968746867729350924491882,
  16371934557545333888128880062140524387,
  16753285902815225227868722868151962757,
  17143520062026748718153612571768462658,
  17542843942496517684048740193247795105,
  17951469271031545105188342859037220478,
  18369612706189919038024527253583073616,
  18797495953155614500929004861973226070,
  19235345881289944713898876216262578964,
  19683394644420509678184316726401448250,
  20141879803932013714984350372105836868,
  20611044454724911645371321355924010277,
  21091137354107075907450052909553050995,
  21582413053688586757061784737743437290,
  22085132034348244900456847972236573696,
  22599560844343720589222357375547289848,
  23125972240639502075509881251491606236,
  23664645333525626824666687753051519394,
  24215865734606186521205017925240099430,
  24779925708234198822310645482502877712,
  25357124326473719833074937923811376095,
  25947767627672448043085751123726367950,
  26552168778726585429694750928319990635,
  27170648241126716726512313471175730228,
  27803533940870426732772102695889770985,
  28451161442332761453144485130906105042,
  29113874126187567981105530634522438049,
  29792023371471657355868956074118614197,
  30485968741891365851870432379655539989,
  31196078176467601394961093319579958916,
  31922728184621831815093173645436763763,
  32666304045806903388893260853365063667,
  33427200013786602994514396414160728455,
  34205819525674904468814929714426398277,
  35002575415843395489901013206690549850,
  35817890134811115387947211274877190590,
  36652195973234228176806936971843242645,
  37505935291111420326615188969299197197,
  38379560752329680894945340696722269058,
  39273535564672513942241494078189134598,
  40188333725418296182851918274536728859,
  41124440272660898187950806459411978722,
  42082351542482278716761356918141245842,
  43062575432117235152418288635089993477,
  44065631669247025570257392246276140213,
  45092052087565285489745292579755187035,
  46142380908764401681310118874534964561,
  47217175031087819547792605590075254440,
  48317004324605889564736571628600358963,
  49442451933368204208818497136235237122,
  50594114584593626204878091812133789062,
  51772602905064260880863002967089414597,
  52978541744886392450553103117272257805,
  54212570508795586476935568498447537422,
  55475343495176915098454628605395555496,
  56767530242982175536781142000108957291,
  58089815886729553540135384537279605865,
  59442901519769485219057969516143202782,
  60827504566015043963034258922562003136,
  62244359160328862401456717634573578835,
  63694216537770827812892093788832426071,
  65177845431913937090939725749194622040,
  66696032482435597898984269704669713974,
  68249582652205788235733052715659141541,
  69839319654088455990859074518084526062,
  71466086387684185865509789437055587769,
  73130745386248335648815555032342672348,
  74834179274015937721742375288158655167,
  76577291234182041534950258210301399231,
  78361005487781071110475750174373388290,
  80186267783719969770572788547724485397,
  82054045900228814502952445764094591141,
  83965330157987395409691089298576116562,
  85921133945208239879320899490267038345,
  87922494254947807235112122725695371628,
  89970472234932813648811134044080972672,
  92066153750197102567653928417712450027,
  94210649958819018934264022391289472580,
  96405097901074526589582092128694057465,
  98650661102309797456655360292643308640,
  100948530189857052619117894209921360016,
  103299923524323020274096052162349224091,
  105706087845577513917305623181164264679,
  108168298933793110450096719432622194290,
  110687862285880427748452348168939352036,
  113266113807678451053106982726603746414,
  115904420522272019411502697039395570755,
  118604181294802401680499315261840820312,
  121366827574167217562717269174754619598,
  124193824151992231463736970908939838409,
  127086669939281733832103782333433628082,
  130046898761164356983499601483345031738,
  133076080170143967507101478986442089081,
  136175820278300108157054637558758258820,
  139347762608868123379579628817737102509,
  142593588967656614840961992740631103516,
  145915020334765642928687157109379768372,
  149313817777069203884821035899221897125,
  152791783381960186716241878457367420197,
  156350761212839074687508400529623031616,
  159992638286859687468677293509244918823,
  163719345575453246510733151808381080627,
  167532859028152159908131579868495464325,
  171435200620267323756706900894641876221,
  175428439424965176840487401932477951050,
  179514692710315387103037210181355476379,
  183696127061898977217424544505774974823,
  187974959531556123693007975816726684570,
  192353458812899447138988762162625789642,
  196833946444204997305860160849988460541,
  201418798039319909776168060488998889923,
  206110444547249102242858498357236385345,
  210911373541070645387662807479500770569,
  215824130536885746778352768160402774811,
  220851320343482456109995837323367595673,
  225995608443437220103078288957476615906,
  231259722406394899962833733297884464264,
  236646453335256040872991434298455715179,
  242158657346061886528332252055406570435,
  247799257082341853219986660405993461609,
  253571243264737091749339015223085880280,
  259477676276724480430857511237263679504,
  265521687787265875613229582086205482483,
  271706482411267018051148625090718269348,
  278035339408703976005199365317821502686,
  284511614423327614531444851309061050415,
  291138741261875566124217584729194641113,
  297920233714716459871851839125156402588,
  304859687418913324563618516549468040466,
  311960781764676028160465648397803306580,
  319227281846218147620675154030323028564,
  326663040458068735460983589291572570801,
  334272000137866029945143964141607284546,
  342058195256749058899004012346267700195,
  350025754158433755947044119238853454590,
  358178901348110741764685371890664100647,
  366521959732342224924650508910417556763,
  375059352911113990103331161662936210632,
  383795607523296666840906254947185516357,
  392735355646725167844124371185898780823,
  401883337254182947617664467543363571167,
  411244402726608939246943918988108634949,
  420823515424822574004792841151356697083,
  430625754321172564687003614380955696106,
  440656316692470227280864492058753967285,
  450920520875652812264888780191540718079,
  461423809087644258397631347179412841797,
  472171750310878167056216625496745109558,
  483170043246058924069075146690011024475,
  494424519333681757871090667322278022766,
  505941145845936546265875222161412239075,
  517726029050642637230339460074901580811,
  529785417448863995559804607182741165161,
  542125705087955566341406665742397308350,
  554753434951769236249674577265977859497,
  567675302429821726946101989597082138062,
  580898158867295251184259541332721710205,
  594429015197695093775109853595495223999,
  608275045660150453841197304427623748779,
  622443591603288609803712461143732070923,
  636942165377707965490117203444242477417,
  651778454319139427752816118299961090088,
  666960324824356007411552127450704574585,
  682495826522057882357330527156591415405,
  698393196540884900969103910028934478760,
  714660863876841858655097894370555877686,
  731307453862483384909864980727434158325,
  748341792740159007735201157629489898682,
  765772912341820870096853468567132949829,
  783610054877810739526466932147741317749,
  801862677837199726127437315881252288818,
  820540459002288571355165913701057434082,
  839653301579873982518620323389768600464,
  859211339452082484058337286114692687988,
  879224942549477532338642049580812454224,
  899704722349328562813752796500921249390,
  920661537501970997254829853773117065430,
  942106499588190217764349654316902160645,
  964050979010744754305051174014806747437,
  986506611023098002988263033330440521240,
  1009485301898570469347760081291198730469,
  1032999235243230259584379382431507110596,
  1057060878455775082329637371003627777100,
  1081682989337931076079257763922214508057,
  1106878622858804192219395190477371215820,
  1132661138076784482109360396862030029297,
  1159044205222720165693317539989948272705]

/-- `BOUNDARIES` (histogram_bins.rs:1029-2031), scaled by `10 ^ 36`. -/
def boundariesN : List Nat := [
  117246530458229809506033624374,
  119977552987138238648411828896,
  122772189202731624903326321761,
  125631920858122061636786680888,
  128558264220886826936283519988,
  131552770877011031067698658241,
  134617028553560716729739434212,
  137752661960517353352702590169,
  140961333652216670733422522466,
  144244744908862782325077288997,
  147604636638564196303292203570,
  151042790300389716841967342395,
  154561028848920506343202294769,
  158161217700803431425457339608,
  161845265723823494498519442314,
  165615126249004708894148525135,
  169472798106298803404726671315,
  173420326684386890187428327537,
  177459805015172090141294157853,
  181593374883534915936164405234,
  185823227962932715523304626030,
  190151606977458016168312012611,
  194580806890957241808191662512,
  199113176123851113552792706229,
  203751117798300743068313578901,
  208497091012371475393584636937,
  213353612143881795486265780942,
  218323256184620589389597288335,
  223408658105637967887852264083,
  228612514254346571314601950856,
  233937583784156748120528672777,
  239386690117418762993172377113,
  244962722442440002244194805631,
  250668637245363620085907311805,
  256507459877747426642860496468,
  262482286160635496429990864975,
  268596284026009764309573385477,
  274852695196467265445694960410,
  281254836904022356487996064586,
  287806103648953531067602703078,
  294509968999601790133521230994,
  301369987434114507353539753193,
  308389796225068802222661580245,
  315573117368002507118800647676,
  322923759554869379600680872472,
  330445620193452257780944913632,
  338142687473827148913785604553,
  346019042482949006721547899681,
  354078861368498086197443945611,
  362326417553133334978489972153,
  370766084000311562360508886235,
  379402335532895289772796964742,
  388239751205763716200580499410,
  397283016733681254350146012586,
  406536926975734262223842463424,
  416006388477621342602413845313,
  425696422073173903671746429525,
  435612165546470545020432468472,
  445758876355945943865553750957,
  456141934421983378367517272811,
  466766844979402627259219924621,
  477639241496419574104382449464,
  488764888661581740820257901275,
  500149685440278313394420282162,
  511799668202461074510169463520,
  523721013923193334855979257092,
  535920043457775774396831952595,
  548403224893138918458093244296,
  561177176977315216766406969634,
  574248672628782941284881352617,
  587624642527558186699853434026,
  601312178789934444943449456944,
  615318538728811576783521691131,
  629651148701626307247164286707,
  644317608047901030325220646244,
  659325693118515693952590844829,
  674683361398827865049881730847,
  690398755727843683805734515541,
  706480208615654274840426219556,
  722936246661443874207881622740,
  739775595074407377291399179331,
  757007182299965516987874398352,
  774640144753755243551239517696,
  792683831665864724773720977752,
  811147810037937603971100550965,
  830041869715701484778254317515,
  849376028579691605162793523881,
  869160537856857336198445219272,
  889405887555890971795605898231,
  910122812029189002837597111811,
  931322295664322717248853871624,
  953015578708127478065297976534,
  975214163226413834821386383833,
  997929819202528193178465543145,
  1021174590777946616126686980863,
  1044960802638239172451784485263,
  1069301066547783964530665516690,
  1094208288036683129990588557445,
  1119695673243458155005536532045,
  1145776735917111260244934632657,
  1172465304582298015650997438653,
  1199775529871384927582960051862,
  1227721892027316301972822421007,
  1256319208581220828126103622457,
  1285582642208865569445315826802,
  1315527708770110363616545785803,
  1346170285535609867214913715205,
  1377526619605173533527025901690,
  1409613336522166707334225224657,
  1442447449088627823250772889974,
  1476046366385642015972481239094,
  1510427903003897274298791830738,
  1545610288489205063432022947689,
  1581612177008034367194132599477,
  1618452657238231556853405405938,
  1656151262490047036001926047954,
  1694727981062991528058174137139,
  1734203266843868901874283275366,
  1774598050151720795533823171741,
  1815933748835345453592499814777,
  1858232279629326996414368650123,
  1901516069774584185089619584041,
  1945808068909572471021475828512,
  1991131761238511135527927062294,
  2037511177983003089639281110723,
  2084970910123714753935846369370,
  2133536121438822401785630894500,
  2183232561846205788016854476563,
  2234086581056379625938963437437,
  2286125142543460948585691203117,
  2339375837841567375326168320981,
  2393866901174192923887644110503,
  2449627224424399810683711242731,
  2506686372453636306738191524834,
  2565074598777474372307723371467,
  2624822861606355387816382276900,
  2685962840260097643095733854768,
  2748526951964672760336068010889,
  2812548369040223670759079052650,
  2878061036489529699082751471040,
  2945099689996018007214330716725,
  3013699874341151214524265125605,
  3083897962250687704589260582089,
  3155731173680025177067124883545,
  3229237595548687231501467503891,
  3304456201934522260172093915953,
  3381426874738278371280552486722,
  3460190424829489961336360590027,
  3540788613684981285490913083258,
  3623264175531325832367492839614,
  3707660840003115729484207269140,
  3794023355328960626903613342908,
  3882397512057636950247568180528,
  3972830167336812649380578532643,
  4065369269757334151908952091237,
  4160063884776213426024138453130,
  4256964220731747824684292058617,
  4356121655464705979599916718659,
  4457588763559459650413774323141,
  4561419344219833783675172728111,
  4667668449794026060833962432639,
  4776392414964195741043824494643,
  4887648886615816772927868572030,
  5001496854402782922185966008044,
  5117996682024610956859931448770,
  5237210139231932925043318943770,
  5359200434577758591001266780252,
  5484032248931389396339169256533,
  5611771769773151955905832882765,
  5742486726287829412848813526171,
  5876246425275582078756771153838,
  6013121787899344449434494569440,
  6153185387288115132560506470583,
  6296511487016263495988116494217,
  6443176080479009879735732835293,
  6593256931185157786558855702586,
  6746833613988278438740580494892,
  6903987557278436626299108341831,
  7064802086156542536646025381986,
  7229362466614439165595289854549,
  7397755950744073772913991793310,
  7570071822999654958120507169950,
  7746401447537552435512395176964,
  7926838316658646612462499336793,
  8111478100379375827952768696072,
  8300418697157015059540779988723,
  8493760285796916263386172052385,
  8691605378568573997259162633444,
  8894058875558909717956058982313,
  9101228120291890663650681558838,
  9313222956643226537213828275519,
  9530155787081274145378269324613,
  9752141632264138348213863838332,
  9979298192025283625850549940051,
  10211745907779465737750396181482,
  10449608026382390453968423971176,
  10693010665477838374757234285450,
  10942082880366830029356464693002,
  11196956732434581126538891693301,
  11457767359171113025965819953722,
  11724653045822981003542921640825,
  11997755298713848852313126891467,
  12277218920273161325662329701469,
  12563192085812206587195141715974,
  12855826422088656541486105522321,
  13155277087701103212648984230881,
  13461702855356098672149137152054,
  13775266196051735758786732644054,
  14096133365221666226309304992270,
  14424474490886278656024202526886,
  14760463663856420159724812390944,
  15104279030038972742987918307378,
  15456102884892051904869650358343,
  15816121770080342824908378740467,
  16184526572382315992050527686530,
  16561512624900471207052207733845,
  16947279810629916127614688625691,
  17342032668438688171709885499361,
  17745980501517207955338231717413,
  18159337488353452841859103639166,
  18582322796293271658209581009835,
  19015160697745841003863248586114,
  19458080689095723863181811030820,
  19911317612385112202312217877243,
  20375111779830031743425758361532,
  20849709101237150080457305456605,
  21335361214388225711922203453597,
  21832325618462057880168544765631,
  22340865810563797106422581628671,
  22861251425434610332889859285466,
  23393758378415673753261683209814,
  23938669011741926697777599342132,
  24496272244243998106837112427314,
  25066863724536361373316020739743,
  25650745987774743723077233714669,
  26248228616063553031130875514698,
  26859628402600976430957338547678,
  27485269519646728450393627363191,
  28125483690402234166491948763600,
  28780610364895296143794567456098,
  29450996899960179225110359912954,
  30136998743411511298209704001749,
  30838979622506877892925553075187,
  31557311736800249229572407072553,
  32292375955486870620948780530313,
  33044562019345224295786833668132,
  33814268747382785406871419375818,
  34601904248294903848528342171775,
  35407886136849812854909130832581,
  36232641755313260017740822904742,
  37076608400031155600776178182798,
  37940233553289608810134975191986,
  38823975120576371196541576313876,
  39728301673368126493805785326430,
  40653692697573344907221309929568,
  41600638847762134260241384531298,
  42569642207317474858711131568967,
  43561216554647056407867378169385,
  44575887635594596504137743231411,
  45614193442198336142685832772514,
  46676684497940267384603202360793,
  47763924149641960798570033963628,
  48876488866158171117410474737497,
  50014968544027829221859660080440,
  51179966820246114650796998013504,
  52372101392319330944499083946297,
  53592004345777580827814984276714,
  54840322489313895657457587073935,
  56117717697731524641256012353452,
  57424867262878290740356346244511,
  58762464252755817399435922521178,
  60131217878993442800279051185797,
  61531853872881151325605064705826,
  62965114870162634959881164942175,
  64431760804790105573620906387333,
  65932569311851572783390873500053,
  67468336139882786081471699457524,
  69039875572784361180793399892508,
  70648020861565423672394359311255,
  72293624666144393350018793054090,
  73977559507440744505403495967499,
  75700718229996551275270966208097,
  77464014475375531131387529804044,
  79268383166586472900888571402334,
  81114781003793751503264108926317,
  83004186971570150595407799887226,
  84937602857969155857598142489451,
  86916053785685736584459837317240,
  88940588755589093791428800805932,
  91012281202918903248375026571182,
  93132229566432272148401860789591,
  95301557870812751618178060297737,
  97521416322641376705875060348916,
  99792981920252826094110132348902,
  102117459077794670930031117883630,
  104496080263824012959901488262204,
  106930106654778387135704131871705,
  109420828803668307069828224964425,
  111969567324345811265388916933006,
  114577673591711133647789988554422,
  117246530458229677898289444737401,
  119977552987138495299394846949070,
  122772189202731738617499490651142,
  125631920858122086200742151262943,
  128558264220886704328264404928461,
  131552770877011018573962686240009,
  134617028553561007050282105623751,
  137752661960517235615122921821296,
  140961333652216662263093049922702,
  144244744908862644258706886546406,
  147604636638564204985379912926646,
  151042790300389876507677899830639,
  154561028848920512272432925549026,
  158161217700803597655673238264740,
  161845265723823159920505276865299,
  165615126249004691741731343235244,
  169472798106298978317030279328037,
  173420326684386902045889589096817,
  177459805015171910146792866314058,
  181593374883534528418591036391661,
  185823227962932899541212417027225,
  190151606977458396486105329792338,
  194580806890957258960608844411411,
  199113176123851128799385756806828,
  203751117798300337763048317718528,
  208497091012371283964138557465162,
  213353612143882243566694878467160,
  218323256184620829523437834929211,
  223408658105637964287962238252305,
  228612514254346354050650980127557,
  233937583784156764637671144235753,
  239386690117419280530303149490123,
  244962722442439737122882315034644,
  250668637245363634061950941500641,
  256507459877747159403965637736178,
  262482286160635523535045177112579,
  268596284026010028583852928818487,
  274852695196467304832727007735116,
  281254836904022633044253343115315,
  287806103648952961437945674560979,
  294509968999601785474840021095133,
  301369987434114841931553918641384,
  308389796225068792481782686820679,
  315573117368002180587599481143002,
  322923759554868733314542117440737,
  330445620193452595323574394470256,
  338142687473827854068714193758183,
  346019042482948997827701953511337,
  354078861368498087891509840119397,
  362326417553132586624881072978610,
  370766084000311176537001411901429,
  379402335532896047443768283713439,
  388239751205764118541230445202928,
  397283016733681292043112165401908,
  406536926975733842095500625291038,
  416006388477621342602413845312981,
  425696422073174789244692783896085,
  435612165546470130397804787492078,
  445758876355945965041377432314107,
  456141934421982900640935021385758,
  466766844979402660293504867539127,
  477639241496420055219096489906860,
  488764888661581751831686215581385,
  500149685440278834319682843556620,
  511799668202461092297861355859823,
  523721013923193322997517995531780,
  535920043457775306834645068221334,
  548403224893138983679630182876963,
  561177176977314690758946724713496,
  574248672628782934508617774582717,
  587624642527558851620717028652052,
  601312178789934468660371980064383,
  615318538728811567466159271333481,
  629651148701626376703865961559359,
  644317608047901028631154751735721,
  659325693118514399686247440257603,
  674683361398827128978250566859742,
  690398755727843638912988311062691,
  706480208615653504887477165397058,
  722936246661443852185024994128071,
  739775595074406659007459907684279,
  757007182299965458542601037805753,
  774640144753753630800507945508571,
  792683831665864729008885714023336,
  811147810037935942939490985281736,
  830041869715700611487285698331107,
  849376028579691558575981424894508,
  869160537856856390062643136218412,
  889405887555890992124396632334538,
  910122812029188110911903653033050,
  931322295664322721484018607895905,
  953015578708125456197652880518945,
  975214163226412818381849678672779,
  997929819202526173851919288892987,
  1021174590777945570888030069056640,
  1044960802638239018291788084979999,
  1069301066547782841364977457487839,
  1094208288036682989383119313231418,
  1119695673243457055556770995963234,
  1145776735917111363582954197681829,
  1172465304582295721885776274007185,
  1199775529871383679056395799022994,
  1227721892027316139342496548181316,
  1256319208581219452544597281473671,
  1285582642208865688029928442404071,
  1315527708770108938907128504069988,
  1346170285535609962082603807687065,
  1377526619605170784058079114231532,
  1409613336522166785261256372052685,
  1442447449088624924704027385757854,
  1476046366385640531970757649560255,
  1510427903003897301403846142875409,
  1545610288489203442210961902958388,
  1581612177008034350253473654390746,
  1618452657238230027111902664671561,
  1656151262490047080047639305178109,
  1694727981062988048446826816473276,
  1734203266843867231525311289885849,
  1774598050151717258324235437783045,
  1815933748835343603672543011384732,
  1858232279629327098058322320639490,
  1901516069774582175927468696841061,
  1945808068909572535395979819838885,
  1991131761238509011169295348508967,
  2037511177983003431840591801460505,
  2084970910123710562816823355092311,
  2133536121438820050422169316561849,
  2183232561846206072619924754008025,
  2234086581056377203424734290138076,
  2286125142543460938421295836064928,
  2339375837841565098501606101422112,
  2393866901174192696882814246350790,
  2449627224424394660723391936585358,
  2506686372453636232199292166455962,
  2565074598777469100374659660701582,
  2624822861606352416424803308814262,
  2685962840260097683753315322974231,
  2748526951964670120981404366489187,
  2812548369040223511516884968841623,
  2878061036489526578613373786197371,
  2945099689996017854748400210951331,
  3013699874341144949868587232799655,
  3083897962250684889051743908794379,
  3155731173680018444849260106366273,
  3229237595548683972118686469343629,
  3304456201934522375368574742537930,
  3381426874738275179660407232518082,
  3460190424829490303537671280764698,
  3540788613684977409468146447579784,
  3623264175531325757828593481235657,
  3707660840003108079082627668299210,
  3794023355328956896570513634969757,
  3882397512057637282284483504213313,
  3972830167336808583622431712001344,
  4065369269757334626247402553644861,
  4160063884776209197635665759662515,
  4256964220731747350345841596208629,
  4356121655464696533488488938701266,
  4457588763559459758833991571691513,
  4561419344219824235919791277638069,
  4667668449794021290344403496419545,
  4776392414964195781701405962849094,
  4887648886615812530986868722493455,
  5001496854402783139026400505144920,
  5117996682024605718808185628176943,
  5237210139231933229975179955317799,
  5359200434577747647335588254691174,
  5484032248931383982104570407045685,
  5611771769773140836057301328310132,
  5742486726287823924075315318305002,
  5876246425275582010994135373493918,
  6013121787899338398231119384718113,
  6153185387288115024140289222032152,
  6296511487016257478666059199667870,
  6443176080479009852630678523155439,
  6593256931185144213702908899676913,
  6746833613988271506622940165698310,
  6903987557278436389129883110626906,
  7064802086156535265715206151071470,
  7229362466614438521850249941280708,
  7397755950744066590074599076842787,
  7570071822999654802266444875158413,
  7746401447537536524845513952186593,
  7926838316658647506929291637334245,
  8111478100379359429394909852817364,
  8300418697157006114872856983311067,
  8493760285796916886802421231550397,
  8691605378568563466945562367982347,
  8894058875558909921243966323345376,
  9101228120291880024916864044826070,
  9313222956643227648521055073160824,
  9530155787081254561976528805189446,
  9752141632264128834339800278030452,
  9979298192025263039561799871535186,
  10211745907779455275199431696364627,
  10449608026382390182917880849799985,
  10693010665477828413649774574878393,
  10942082880366825123341634196094674,
  11196956732434570555567709959632339,
  11457767359171106696935638069589913,
  11724653045822961555666452682089584,
  11997755298713837224244826984431711,
  12277218920273162694467572464418481,
  12563192085812194959126841808938480,
  12855826422088656446618415429838933,
  13155277087701089389071285040699877,
  13461702855356092248251265175440494,
  13775266196051716080517302032149018,
  14096133365221660480037790819096699,
  14424474490886256619615046759008692,
  14760463663856405319707576495602552,
  15104279030038973014038461428754090,
  15456102884892033988428750035382109,
  15816121770080342201492129561302136,
  16184526572382298970076419664110290,
  16561512624900461693178144173543842,
  16947279810629888724404779054566461,
  17342032668438672748933981893060263,
  17745980501517183425264079232874792,
  18159337488353435169363692125443777,
  18582322796293269245859747229587811,
  19015160697745822626636424956814153,
  19458080689095713644576335354940966,
  19911317612385091846416429461896769,
  20375111779830021307979848188551841,
  20849709101237116903870827400169219,
  21335361214388202238945169142425584,
  21832325618462058991475771563273156,
  22340865810563773768970818878187856,
  22861251425434610251574696349052829,
  23393758378415650117654323025817575,
  23938669011741915693125548614261788,
  24496272244243961352383465168713883,
  25066863724536349311566851838506409,
  25650745987774715289875260282315139,
  26248228616063538909397578891002922,
  26859628402600990715320961044199066,
  27485269519646700342452305676488322,
  28125483690402248992956657502872986,
  28780610364895264918771999873570167,
  29450996899960179414845740097916860,
  30136998743411483325793653875734890,
  30838979622506864503028722879207635,
  31557311736800215673515168646190432,
  32292375955486854466336410496296594,
  33044562019345240233558769205046701,
  33814268747382754398689286290391465,
  34601904248294901300653236830839887,
  35407886136849774094681464475797839,
  36232641755313259313009410789163667,
  37076608400031116352657534207537537,
  37940233553289584578216420140961418,
  38823975120576392772164808775414713,
  39728301673368104918182552864891477,
  40653692697573365344432261281326646,
  41600638847762091976356657596625155,
  42569642207317480442352319869314670,
  43561216554647008702971788807190023,
  44575887635594599323063391693722224,
  45614193442198289196731764150172239,
  46676684497940240659019650593108963,
  47763924149641985572589675257404451,
  48876488866158120105698259294513264,
  50014968544027857411116144703555619,
  51179966820246058922805332258576527,
  52372101392319334034475275529985083,
  53592004345777530249783637827931670,
  54840322489313864107174367745756172,
  56117717697731467341171196494542528,
  57424867262878265261605292835156433,
  58762464252755851334963921317466884,
  60131217878993385717034669823988224,
  61531853872881153710849844173935708,
  62965114870162569582490164066257421,
  64431760804790100261030261208361480,
  65932569311851513260691604045860004,
  67468336139882748025975445216317894,
  69039875572784403789938778572832234,
  70648020861565394290515484954084968,
  72293624666144432056036350786598632,
  73977559507440671104916418698849156,
  75700718229996549757387924728391226,
  77464014475375445045735034454992274,
  79268383166586478538739868326956639,
  81114781003793670621782041507685790,
  83004186971570109720985897183709312,
  84937602857969210501387635758874239,
  86916053785685648547243431494280230,
  88940588755589133906909182769595645,
  91012281202918807188062544355489081,
  93132229566432273015763598777994048,
  95301557870812653172620798613934312,
  97521416322641329976761426223674789,
  99792981920252724070685701462934958,
  102117459077794611732592500175087480,
  104496080263823967748670895616669441,
  106930106654778311892073361377697438,
  109420828803668310214014525172387948,
  111969567324345736780699667178851087,
  114577673591711129419401515860954532,
  117246530458229650251134046357037732,
  119977552987138427753599501102144131,
  122772189202731682455826955902011832,
  125631920858121998163525745439983439,
  128558264220886619977335385556216352,
  131552770877010921646288466035912279,
  134617028553561002279792546687531285,
  137752661960517192030195587904017884,
  140961333652216663780976091402408201,
  144244744908862604360066939079842996,
  147604636638564129524908707935537677,
  151042790300389806468217557267053053,
  154561028848920395395438731611648109,
  158161217700803519159435950314218644,
  161845265723822989700764196641102899,
  165615126249004651626250961271580309,
  169472798106298894182941694452892989,
  173420326684386810756066665817343164,
  177459805015171806497065176699834410,
  181593374883534441899257672048406675,
  185823227962932768786430415275390260,
  190151606977458226266364249568141531,
  194580806890957191956914584807236679,
  199113176123850932341952102433424443,
  203751117798300268590949713143345434,
  208497091012371155160920466187235434,
  213353612143882126472860250032681506,
  218323256184620645425908946890558582,
  223408658105637841773116747390304226,
  228612514254346171904686002562812064,
  233937583784156521993224941979860887,
  239386690117419198564618909585988149,
  244962722442439606584940747779910453,
  250668637245363534749031941828434356,
  256507459877747034937556236400268972,
  262482286160635402971763596724485978,
  268596284026009823886482763555250131,
  274852695196466989546735248950426467,
  281254836904022420540627535956446081,
  287806103648952649187719998735701665,
  294509968999601745576200073628569953,
  301369987434114194879697379292338155,
  308389796225068624213605517070391215,
  315573117368002031835061416131793521,
  322923759554869072019300801912322640,
  330445620193452305191073037349269725,
  338142687473826974997592742511187680,
  346019042482948901984229905792744830,
  354078861368497754824602452572435141,
  362326417553133106608242997026536614,
  370766084000311024748697263930807821,
  379402335532895207403925041944603436,
  388239751205763816699345625238493085,
  397283016733681049181825528648914769,
  406536926975734180800259309762623161,
  416006388477620892007990960337338038,
  425696422073173985634042537640198134,
  435612165546469976007415425556246191,
  445758876355945854452755838792654686,
  456141934421983474834405569708906114,
  466766844979402351079045274673262611,
  477639241496418898158538013376528397,
  488764888661581187179194785130675882,
  500149685440278490844434600148815662,
  511799668202461477406473022710997611,
  523721013923193146055723445897456259,
  535920043457774220030387368751689792,
  548403224893138641071743677457561716,
  561177176977314395855955808656290174,
  574248672628783540794472628476796672,
  587624642527558305182822095957817510,
  601312178789932816336261112155625597,
  615318538728811370575044747965876013,
  629651148701625751336052871920401230,
  644317608047901946299873543466674164,
  659325693118514855051159884169464931,
  674683361398826342281154211377725005,
  690398755727843815854782860697014257,
  706480208615653748616125540138455108,
  722936246661445180983207592362305149,
  739775595074406711049164186988491565,
  757007182299964109795098465838236734,
  774640144753754089634867341374047101,
  792683831665864535587218142609344795,
  811147810037937788685269424604484811,
  830041869715701041698707740579266101,
  849376028579690411923763804225018248,
  869160537856856429961283083684975281,
  889405887555891117024486902664648369,
  910122812029189542926133071887306869,
  931322295664322563624182294006459415,
  953015578708124588835914892115397379,
  975214163226413299767614262236747891,
  997929819202526879884374011453473940,
  1021174590777947699393735092598944902,
  1044960802638239316664225952990818769,
  1069301066547781120519289288495201617,
  1094208288036682796828813479805830866,
  1119695673243457090251240515499375761,
  1145776735917112931772976480715442449,
  1172465304582296363733462385425809771,
  1199775529871382362401277532626409084,
  1227721892027316519246937787102069706,
  1256319208581220037146408685657661408,
  1285582642208868087152495718328282237,
  1315527708770108938907128504069987684,
  1346170285535607469284968829015269876,
  1377526619605171642746199722751043737,
  1409613336522166360254004757734946907,
  1442447449088628097513264947338029742,
  1476046366385641128715633385581895709,
  1510427903003895178102311547263525426,
  1545610288489203565376328697311691940,
  1581612177008034469949393496790435165,
  1618452657238232728076354760560207069,
  1656151262490046738307114537747111171,
  1694727981062986277294157844153232872,
  1734203266843867830004910501884296536,
  1774598050151718453548710385803133249,
  1815933748835347305572440745891071856,
  1858232279629327576842001690238248557,
  1901516069774578987505719851469621062,
  1945808068909572030591448310588020831,
  1991131761238509323419521024334244430,
  2037511177983005961067419775645248592,
  2084970910123711718142658355645835400,
  2133536121438817545481470006052404642,
  2183232561846206731814845625194720924,
  2234086581056378140175411317613907158,
  2286125142543465216249387594871222973,
  2339375837841564997887644494767300785,
  2393866901174188210887905370327644050,
  2449627224424396398916314865346066654,
  2506686372453635680557226805831305683,
  2565074598777474790267660864628851414,
  2624822861606353363583821192150935531,
  2685962840260093908995031597441993654,
  2748526951964670228534259877051226795,
  2812548369040224205406275359564460814,
  2878061036489531154813903413014486432,
  2945099689996017122695093348738737404,
  3013699874341142059819276255439035594,
  3083897962250685687024542858125641942,
  3155731173680020429372916623833589256,
  3229237595548690720193008019123226404,
  3304456201934523384977637761039659381,
  3381426874738270083042834812658838928,
  3460190424829489241886903982958756387,
  3540788613684977548246024525724351406,
  3623264175531331066082429970265366137,
  3707660840003109914420065251761116087,
  3794023355328952185061552881961688399,
  3882397512057638166993456252384930849,
  3972830167336810713862860211520455778,
  4065369269757341363913383247563615441,
  4160063884776208809057607140857726336,
  4256964220731740411451937688980251551,
  4356121655464699315984944405499845743,
  4457588763559458655549860850442200899,
  4561419344219834748344055697089061141,
  4667668449794024176924267521826550364,
  4776392414964188759540775208733975887,
  4887648886615812315881157701369374990,
  5001496854402784464355136151425540447,
  5117996682024613441797100676922127604,
  5237210139231931904646444309037178755,
  5359200434577742200303873687516897917,
  5484032248931386632762041699606925249,
  5611771769773143958559558086562901735,
  5742486726287835629989331209799274802,
  5876246425275583717962035734672099352,
  6013121787899328829496425896650180221,
  6153185387288114149839657329721376300,
  6296511487016257291315923794172704220,
  6443176080479020129132550209760665894,
  6593256931185148772556203766725957394,
  6746833613988265199168381514027714729,
  6903987557278440156949272932251915336,
  7064802086156539040473489876603707671,
  7229362466614453808233520248904824257,
  7397755950744068442759271420072764158,
  7570071822999643096352428983664140105,
  7746401447537542672705512813990935683,
  7926838316658646910184415901312604547,
  8111478100379379441164928721264004707,
  8300418697157009972897867555730044842,
  8493760285796904341282242967281490564,
  8691605378568565853925065312068909407,
  8894058875558913612735523201990872622,
  9101228120291896317439750418998301029,
  9313222956643226524420242640189826488,
  9530155787081246998582173546310514212,
  9752141632264132553586932772304862738,
  9979298192025270353155974589753895998,
  10211745907779476993937350925989449024,
  10449608026382396275266728480346500874,
  10693010665477812537460522435139864683,
  10942082880366831076912603748496621847,
  11196956732434570014333985454868525267,
  11457767359171130649997394357342272997,
  11724653045822968522315932204946875572,
  11997755298713824956280404876451939344,
  12277218920273169189272266521584242582,
  12563192085812200815553296706639230251,
  12855826422088682647881796583533287048,
  13155277087701088944982075190637260675,
  13461702855356078245563367090653628111,
  13775266196051722644710935128387063742,
  14096133365221666267075306677725166082,
  14424474490886286304203167674131691456,
  14760463663856413063513173256069421768,
  15104279030038956221915213973261415958,
  15456102884892034765584867272991687059,
  15816121770080350472653663018718361855,
  16184526572382331721655646106228232384,
  16561512624900469603517194627784192562,
  16947279810629861884763158741407096386,
  17342032668438680076405944419093430042,
  17745980501517191640914461459033191204,
  18159337488353472167545987758785486221,
  18582322796293279765222905552946031094,
  19015160697745791651414037914946675301,
  19458080689095723414538952056318521500,
  19911317612385090569659951142966747284,
  20375111779830064051566296257078647614,
  20849709101237127839567619957961142063,
  21335361214388179007528378861024975777,
  21832325618462071759040554752573370934,
  22340865810563784066289372276514768600,
  22861251425434659267921233549714088440,
  23393758378415650867054864647798240185,
  23938669011741890102484831004403531551,
  24496272244243971982768925954587757587,
  25066863724536361246464366558939218521,
  25650745987774755008103966247290372849,
  26248228616063538964908730122260749340,
  26859628402600950636269772076047956944,
  27485269519646699620807339670136570930,
  28125483690402248271311691496521234512,
  28780610364895323982636909931898117065,
  29450996899960180996913550188764929771,
  30136998743411421486371182254515588284,
  30838979622506862199315946782007813454,
  31557311736800215840048622339963912964,
  32292375955486903649216401390731334686,
  33044562019345242731560574611648917198,
  33814268747382698165893089026212692261,
  34601904248294900412474817130714654922,
  35407886136849775482460245257243514061,
  36232641755313309772645880002528429031,
  37076608400031119572304305620491504669,
  37940233553289530732399725820869207382,
  38823975120576392328075598925352096558,
  39728301673368108026807021815329790115,
  40653692697573404757349635474383831024,
  41600638847762091643289750209078192711,
  42569642207317393456378340488299727440,
  43561216554646989607135765254497528076,
  44575887635594575897357572102919220924,
  45614193442198335048942681169137358665,
  46676684497940215123890084214508533478,
  47763924149641887595407752087339758873,
  48876488866158119606097898213192820549,
  50014968544027830432696646312251687050,
  51179966820246136194327846169471740723,
  52372101392319308388323406688868999481,
  53592004345777418450325058074668049812,
  54840322489313841458624665392562747002,
  56117717697731436032881902065128087997,
  57424867262878350970822793897241353989,
  58762464252755819416051963344216346741,
  60131217878993261649611667962744832039,
  61531853872881121958471339894458651543,
  62965114870162572913159237941727042198,
  64431760804790158658761356491595506668,
  65932569311851466409279964864253997803,
  67468336139882609359119669534265995026,
  69039875572784367818712780717760324478,
  70648020861565356653954950161278247833,
  72293624666144495449771056883037090302,
  73977559507440659558596962597221136093,
  75700718229996397212744341231882572174,
  77464014475375407187129894737154245377,
  79268383166586431798350531607866287231,
  81114781003793751779085141606628894806,
  83004186971570064201841887552291154861,
  84937602857969025649254035670310258865,
  86916053785685647881109616719186306000,
  88940588755589089942077407613396644592,
  91012281202918941858115431386977434158,
  93132229566432215506210923194885253906,
  95301557870812459327680699061602354050,
  97521416322641286456018860917538404465,
  99792981920252671557136636693030595779,
  102117459077794762833946151658892631531,
  104496080263823913014675781596451997757,
  106930106654778057873045327141880989075,
  109420828803668300110985001083463430405,
  111969567324345703696053533349186182022,
  114577673591711246103841403964906930923,
  117246530458229557325466885231435298920,
  119977552987138253115517727565020322800,
  122772189202731624391162768006324768066,
  125631920858121944206686748657375574112,
  128558264220886826478817965835332870483,
  131552770877010885897107073105871677399,
  134617028553560714954073773697018623352,
  137752661960517087891275878064334392548,
  140961333652216666223466745577752590179,
  144244744908862799093185458332300186157,
  147604636638564045370003441348671913147,
  151042790300389413005177630111575126648,
  154561028848920358313989709131419658661,
  158161217700803433672263054177165031433,
  161845265723823160897154593840241432190,
  165615126249004703140599303878843784332,
  169472798106298625953058945015072822571,
  173420326684386708393503795377910137177,
  177459805015171724562605959363281726837,
  181593374883534721675459877587854862213,
  185823227962932719492528121918439865112,
  190151606977457817038157372735440731049,
  194580806890957234145389520563185214996,
  199113176123850934118308941833674907684,
  203751117798300526828825240954756736755,
  208497091012371072338282829150557518005,
  213353612143881804286138503812253475189,
  218323256184620589692713110707700252533,
  223408658105637726976056001149117946625,
  228612514254346592679212335497140884399,
  233937583784156515775976004078984260559,
  239386690117418794443437946029007434845,
  244962722442439485348586458712816238403,
  250668637245363612464643665589392185211,
  256507459877747407972492510452866554260,
  262482286160635226224258076399564743042,
  268596284026009243461885489523410797119,
  274852695196466981997218681499361991882,
  281254836904022340604569762945175170898,
  287806103648952955609274795278906822205,
  294509968999601767336571356281638145447,
  301369987434114193547429749742150306702,
  308389796225068494095467031002044677734,
  315573117368001874183391919359564781189,
  322923759554869093335582874715328216553,
  330445620193452214152785018086433410645,
  338142687473826811128674307838082313538,
  346019042482949032546457601711153984070,
  354078861368497769035457167774438858032,
  362326417553132955617911648005247116089,
  370766084000310797819111030548810958862,
  379402335532895278902287827804684638977,
  388239751205763695907080546021461486816,
  397283016733680881316104205325245857239,
  406536926975734274947171797975897789001,
  416006388477620930643752217292785644531,
  425696422073173891931219259276986122131,
  435612165546469668697682209312915802002,
  445758876355945972136396449059247970581,
  456141934421983364700281526893377304077,
  466766844979402151238900842145085334778,
  477639241496418605947837932035326957703,
  488764888661581210271833697333931922913,
  500149685440278346959530608728528022766,
  511799668202461134569603018462657928467,
  523721013923193368100328370928764343262,
  535920043457774227135814726352691650391,
  548403224893138371953682508319616317749,
  561177176977314047690015286207199096680,
  574248672628783538129937369376420974731,
  587624642527558194160519633442163467407,
  601312178789932659128680825233459472656,
  615318538728811518012662418186664581299,
  629651148701625743342447094619274139404,
  644317608047901671852741856127977371216,
  659325693118514436719124205410480499268,
  674683361398826491495128720998764038086,
  690398755727843649765418376773595809937,
  706480208615653509696130640804767608643,
  722936246661445352401642594486474990845,
  739775595074406624007679056376218795776,
  757007182299963915284024551510810852051,
  774640144753753702389076352119445800781,
  792683831665864772730856202542781829834,
  811147810037937574634270276874303817749,
  830041869715700613596709445118904113770,
  849376028579689887010317761451005935669,
  869160537856856421967677306383848190308,
  889405887555890899420774076133966445923,
  910122812029189049098931718617677688599,
  931322295664322723496297840029001235962,
  953015578708124508011678699404001235962,
  975214163226412779295060317963361740112,
  997929819202526232402306050062179565430,
  1021174590777947742026299238204956054688,
  1044960802638239101725048385560512542725,
  1069301066547780692417290993034839630127,
  1094208288036683143218397162854671478271,
  1119695673243457122225663624703884124756,
  1145776735917112546303542330861091613770,
  1172465304582295630098087713122367858887]

end Verif
