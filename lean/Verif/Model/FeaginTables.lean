import Verif.Model.ButcherTables

/-
The Butcher tables of the Feagin solvers.  Simplification: a decimal string is the exact rational number it denotes, not its
rounding to `nbcoord_t`.
-/

namespace NB

/-- Where row `i` starts in the flat array of coefficients: `a[0] = data`, row `i` has `i` coefficients
(/repo/nbody/nbody_solver_rkfeagin10.cpp:169-188, nbody_solver_rkfeagin12.cpp:28-37,
nbody_solver_rkfeagin14.cpp:27-36). -/
def triangleOffset : ℕ → ℕ
  | 0 => 0
  | i + 1 => i * (i + 1) / 2 + 1

/-- The rows as the solver sees them through the pointers into `data`: `i` coefficients from the start of row `i` (the solver
reads no others, /repo/nbody/nbody_solver_rk_butcher.cpp:144-147). -/
def triangle {R : Type} (steps : ℕ) (data : List R) : List (List R) :=
  (List.range steps).map fun i => (data.drop (triangleOffset i)).take i

/-- /repo/nbody/nbody_solver_rkfeagin10.cpp:27-191, `data`. -/
def feagin10Data : List ℚ :=
  [0.000000000000000000000000000000000000000000000000000000000000, 0.100000000000000000000000000000000000000000000000000000000000,
   -0.915176561375291440520015019275342154318951387664369720564660, 1.45453440217827322805250021715664459117622483736537873607016,
   0.202259190301118170324681949205488413821477543637878380814562, 0.000000000000000000000000000000000000000000000000000000000000,
   0.606777570903354510974045847616465241464432630913635142443687, 0.184024714708643575149100693471120664216774047979591417844635,
   0.000000000000000000000000000000000000000000000000000000000000, 0.197966831227192369068141770510388793370637287463360401555746,
   -0.0729547847313632629185146671595558023015011608914382961421311, 0.0879007340206681337319777094132125475918886824944548534041378,
   0.000000000000000000000000000000000000000000000000000000000000, 0.000000000000000000000000000000000000000000000000000000000000,
   0.410459702520260645318174895920453426088035325902848695210406, 0.482713753678866489204726942976896106809132737721421333413261,
   0.0859700504902460302188480225945808401411132615636600222593880, 0.000000000000000000000000000000000000000000000000000000000000,
   0.000000000000000000000000000000000000000000000000000000000000, 0.330885963040722183948884057658753173648240154838402033448632,
   0.489662957309450192844507011135898201178015478433790097210790, -0.0731856375070850736789057580558988816340355615025188195854775,
   0.120930449125333720660378854927668953958938996999703678812621, 0.000000000000000000000000000000000000000000000000000000000000,
   0.000000000000000000000000000000000000000000000000000000000000, 0.000000000000000000000000000000000000000000000000000000000000,
   0.260124675758295622809007617838335174368108756484693361887839, 0.0325402621549091330158899334391231259332716675992700000776101,
   -0.0595780211817361001560122202563305121444953672762930724538856, 0.110854379580391483508936171010218441909425780168656559807038,
   0.000000000000000000000000000000000000000000000000000000000000, 0.000000000000000000000000000000000000000000000000000000000000,
   0.000000000000000000000000000000000000000000000000000000000000, 0.000000000000000000000000000000000000000000000000000000000000,
   -0.0605761488255005587620924953655516875526344415354339234619466, 0.321763705601778390100898799049878904081404368603077129251110,
   0.510485725608063031577759012285123416744672137031752354067590, 0.112054414752879004829715002761802363003717611158172229329393,
   0.000000000000000000000000000000000000000000000000000000000000, 0.000000000000000000000000000000000000000000000000000000000000,
   0.000000000000000000000000000000000000000000000000000000000000, 0.000000000000000000000000000000000000000000000000000000000000,
   -0.144942775902865915672349828340980777181668499748506838876185, -0.333269719096256706589705211415746871709467423992115497968724,
   0.499269229556880061353316843969978567860276816592673201240332, 0.509504608929686104236098690045386253986643232352989602185060,
   0.113976783964185986138004186736901163890724752541486831640341, 0.000000000000000000000000000000000000000000000000000000000000,
   0.000000000000000000000000000000000000000000000000000000000000, 0.000000000000000000000000000000000000000000000000000000000000,
   0.000000000000000000000000000000000000000000000000000000000000, -0.0768813364203356938586214289120895270821349023390922987406384,
   0.239527360324390649107711455271882373019741311201004119339563, 0.397774662368094639047830462488952104564716416343454639902613,
   0.0107558956873607455550609147441477450257136782823280838547024, -0.327769124164018874147061087350233395378262992392394071906457,
   0.0798314528280196046351426864486400322758737630423413945356284, 0.000000000000000000000000000000000000000000000000000000000000,
   0.000000000000000000000000000000000000000000000000000000000000, 0.000000000000000000000000000000000000000000000000000000000000,
   0.000000000000000000000000000000000000000000000000000000000000, -0.0520329686800603076514949887612959068721311443881683526937298,
   -0.0576954146168548881732784355283433509066159287152968723021864, 0.194781915712104164976306262147382871156142921354409364738090,
   0.145384923188325069727524825977071194859203467568236523866582, -0.0782942710351670777553986729725692447252077047239160551335016,
   -0.114503299361098912184303164290554670970133218405658122674674, 0.985115610164857280120041500306517278413646677314195559520529,
   0.000000000000000000000000000000000000000000000000000000000000, 0.000000000000000000000000000000000000000000000000000000000000,
   0.330885963040722183948884057658753173648240154838402033448632, 0.489662957309450192844507011135898201178015478433790097210790,
   -1.37896486574843567582112720930751902353904327148559471526397, -0.861164195027635666673916999665534573351026060987427093314412,
   5.78428813637537220022999785486578436006872789689499172601856, 3.28807761985103566890460615937314805477268252903342356581925,
   -2.38633905093136384013422325215527866148401465975954104585807, -3.25479342483643918654589367587788726747711504674780680269911,
   -2.16343541686422982353954211300054820889678036420109999154887, 0.895080295771632891049613132336585138148156279241561345991710,
   0.000000000000000000000000000000000000000000000000000000000000, 0.197966831227192369068141770510388793370637287463360401555746,
   -0.0729547847313632629185146671595558023015011608914382961421311, 0.0000000000000000000000000000000000000000000000000000000000000,
   -0.851236239662007619739049371445966793289359722875702227166105, 0.398320112318533301719718614174373643336480918103773904231856,
   3.6393726318103560602941292004709004413202738789397780417, 1.54822877039830322365301663075174564919981736348973496313065,
   -2.12221714704053716026062427460427261025318461146260124401561, -1.58350398545326172713384349625753212757269188934434237975291,
   -1.71561608285936264922031819751349098912615880827551992973034, -0.0244036405750127452135415444412216875465593598370910566069132,
   -0.915176561375291440520015019275342154318951387664369720564660, 1.45453440217827322805250021715664459117622483736537873607016,
   0.000000000000000000000000000000000000000000000000000000000000, 0.000000000000000000000000000000000000000000000000000000000000,
   -0.777333643644968233538931228575302137803351053629547286334469, 0.000000000000000000000000000000000000000000000000000000000000,
   -0.0910895662155176069593203555807484200111889091770101799647985, 0.000000000000000000000000000000000000000000000000000000000000,
   0.000000000000000000000000000000000000000000000000000000000000, 0.000000000000000000000000000000000000000000000000000000000000,
   0.000000000000000000000000000000000000000000000000000000000000, 0.000000000000000000000000000000000000000000000000000000000000,
   0.0910895662155176069593203555807484200111889091770101799647985, 0.777333643644968233538931228575302137803351053629547286334469,
   0.100000000000000000000000000000000000000000000000000000000000, 0.000000000000000000000000000000000000000000000000000000000000,
   -0.157178665799771163367058998273128921867183754126709419409654, 0.000000000000000000000000000000000000000000000000000000000000,
   0.000000000000000000000000000000000000000000000000000000000000, 0.000000000000000000000000000000000000000000000000000000000000,
   0.000000000000000000000000000000000000000000000000000000000000, 0.000000000000000000000000000000000000000000000000000000000000,
   0.000000000000000000000000000000000000000000000000000000000000, 0.000000000000000000000000000000000000000000000000000000000000,
   0.000000000000000000000000000000000000000000000000000000000000, 0.000000000000000000000000000000000000000000000000000000000000,
   0.000000000000000000000000000000000000000000000000000000000000, 0.000000000000000000000000000000000000000000000000000000000000,
   0.157178665799771163367058998273128921867183754126709419409654, 0.181781300700095283888472062582262379650443831463199521664945,
   0.675000000000000000000000000000000000000000000000000000000000, 0.342758159847189839942220553413850871742338734703958919937260,
   0.000000000000000000000000000000000000000000000000000000000000, 0.259111214548322744512977076191767379267783684543182428778156,
   -0.358278966717952089048961276721979397739750634673268802484271, -1.04594895940883306095050068756409905131588123172378489286080,
   0.930327845415626983292300564432428777137601651182965794680397, 1.77950959431708102446142106794824453926275743243327790536000,
   0.100000000000000000000000000000000000000000000000000000000000, -0.282547569539044081612477785222287276408489375976211189952877,
   -0.159327350119972549169261984373485859278031542127551931461821, -0.145515894647001510860991961081084111308650130578626404945571,
   -0.259111214548322744512977076191767379267783684543182428778156, -0.342758159847189839942220553413850871742338734703958919937260,
   -0.67500000000000000000000000000000000000000000000000000000]

/-- /repo/nbody/nbody_solver_rkfeagin10.cpp:22-25,27-268: the table. -/
def feagin10Tab : Tab ℚ where
  steps := 17
  rows := triangle 17 feagin10Data
  b1 :=
    [0.0333333333333333333333333333333333333333333333333333333333333, 0.0277777777777777777777777777777777777777777777777777777777778,
     0.0333333333333333333333333333333333333333333333333333333333333, 0.000000000000000000000000000000000000000000000000000000000000,
     0.0500000000000000000000000000000000000000000000000000000000000, 0.000000000000000000000000000000000000000000000000000000000000,
     0.0400000000000000000000000000000000000000000000000000000000000, 0.000000000000000000000000000000000000000000000000000000000000,
     0.189237478148923490158306404106012326238162346948625830327194, 0.277429188517743176508360262560654340428504319718040836339472,
     0.277429188517743176508360262560654340428504319718040836339472, 0.189237478148923490158306404106012326238162346948625830327194,
     -0.0400000000000000000000000000000000000000000000000000000000000, -0.0500000000000000000000000000000000000000000000000000000000000,
     -0.0333333333333333333333333333333333333333333333333333333333333, -0.0277777777777777777777777777777777777777777777777777777777778,
     0.0333333333333333333333333333333333333333333333333333333333333]
  b2 :=
    [0.0333333333333333333333333333333333333333333333333333333333333, 0.0250000000000000000000000000000000000000000000000000000000000,
     0.0333333333333333333333333333333333333333333333333333333333333, 0.000000000000000000000000000000000000000000000000000000000000,
     0.0500000000000000000000000000000000000000000000000000000000000, 0.000000000000000000000000000000000000000000000000000000000000,
     0.0400000000000000000000000000000000000000000000000000000000000, 0.000000000000000000000000000000000000000000000000000000000000,
     0.189237478148923490158306404106012326238162346948625830327194, 0.277429188517743176508360262560654340428504319718040836339472,
     0.277429188517743176508360262560654340428504319718040836339472, 0.189237478148923490158306404106012326238162346948625830327194,
     -0.0400000000000000000000000000000000000000000000000000000000000, -0.0500000000000000000000000000000000000000000000000000000000000,
     -0.0333333333333333333333333333333333333333333333333333333333333, -0.0250000000000000000000000000000000000000000000000000000000000,
     0.0333333333333333333333333333333333333333333333333333333333333]
  c :=
    [0.000000000000000000000000000000000000000000000000000000000000, 0.100000000000000000000000000000000000000000000000000000000000,
     0.539357840802981787532485197881302436857273449701009015505500, 0.809036761204472681298727796821953655285910174551513523258250,
     0.309036761204472681298727796821953655285910174551513523258250, 0.981074190219795268254879548310562080489056746118724882027805,
     0.833333333333333333333333333333333333333333333333333333333333, 0.354017365856802376329264185948796742115824053807373968324184,
     0.882527661964732346425501486979669075182867844268052119663791, 0.642615758240322548157075497020439535959501736363212695909875,
     0.357384241759677451842924502979560464040498263636787304090125, 0.117472338035267653574498513020330924817132155731947880336209,
     0.833333333333333333333333333333333333333333333333333333333333, 0.309036761204472681298727796821953655285910174551513523258250,
     0.539357840802981787532485197881302436857273449701009015505500, 0.100000000000000000000000000000000000000000000000000000000000,
     1.000000000000000000000000000000000000000000000000000000000000]
  implicit := false
  embedded := true

/-- /repo/nbody/nbody_solver_rkfeagin12.cpp:39-382, `data`.  The last element, a NaN that marks the end, is left out. -/
def feagin12Data : List ℚ :=
  [0.000000000000000000000000000000000000000000000000000000000000, 0.200000000000000000000000000000000000000000000000000000000000,
   -0.216049382716049382716049382716049382716049382716049382716049, 0.771604938271604938271604938271604938271604938271604938271605,
   0.208333333333333333333333333333333333333333333333333333333333, 0.000000000000000000000000000000000000000000000000000000000000,
   0.625000000000000000000000000000000000000000000000000000000000, 0.193333333333333333333333333333333333333333333333333333333333,
   0.000000000000000000000000000000000000000000000000000000000000, 0.220000000000000000000000000000000000000000000000000000000000,
   -0.0800000000000000000000000000000000000000000000000000000000000, 0.100000000000000000000000000000000000000000000000000000000000,
   0.000000000000000000000000000000000000000000000000000000000000, 0.000000000000000000000000000000000000000000000000000000000000,
   0.400000000000000000000000000000000000000000000000000000000000, 0.500000000000000000000000000000000000000000000000000000000000,
   0.103364471650010477570395435690481791543342708330349879244197, 0.000000000000000000000000000000000000000000000000000000000000,
   0.000000000000000000000000000000000000000000000000000000000000, 0.124053094528946761061581889237115328211074784955180298044074,
   0.483171167561032899288836480451962508724109257517289177302380, -0.0387530245694763252085681443767620580395733302341368038804290,
   0.124038261431833324081904585980175168140024670698633612292480, 0.000000000000000000000000000000000000000000000000000000000000,
   0.000000000000000000000000000000000000000000000000000000000000, 0.000000000000000000000000000000000000000000000000000000000000,
   0.217050632197958486317846256953159942875916353757734167684657, 0.0137455792075966759812907801835048190594443990939408530842918,
   -0.0661095317267682844455831341498149531672668252085016565917546, 0.0914774894856882983144991846980432197088832099976660100090486,
   0.000000000000000000000000000000000000000000000000000000000000, 0.000000000000000000000000000000000000000000000000000000000000,
   0.000000000000000000000000000000000000000000000000000000000000, 0.000000000000000000000000000000000000000000000000000000000000,
   -0.00544348523717469689965754944144838611346156873847009178068318, 0.0680716801688453518578515120895103863112751730758794372203952,
   0.408394315582641046727306852653894780093303185664924644551239, 0.0890013652502551018954509355423841780143232697403434118692699,
   0.000000000000000000000000000000000000000000000000000000000000, 0.000000000000000000000000000000000000000000000000000000000000,
   0.000000000000000000000000000000000000000000000000000000000000, 0.000000000000000000000000000000000000000000000000000000000000,
   0.00499528226645532360197793408420692800405891149406814091955810, 0.397918238819828997341739603001347156083435060931424970826304,
   0.427930210752576611068192608300897981558240730580396406312359, -0.0865117637557827005740277475955029103267246394128995965941585,
   0.0695087624134907543112693906409809822706021061685544615255758, 0.000000000000000000000000000000000000000000000000000000000000,
   0.000000000000000000000000000000000000000000000000000000000000, 0.000000000000000000000000000000000000000000000000000000000000,
   0.000000000000000000000000000000000000000000000000000000000000, 0.129146941900176461970759579482746551122871751501482634045487,
   1.53073638102311295076342566143214939031177504112433874313011, 0.577874761129140052546751349454576715334892100418571882718036,
   -0.951294772321088980532340837388859453930924498799228648050949, -0.408276642965631951497484981519757463459627174520978426909934,
   0.0444861403295135866269453507092463581620165501018684152933313, 0.000000000000000000000000000000000000000000000000000000000000,
   0.000000000000000000000000000000000000000000000000000000000000, 0.000000000000000000000000000000000000000000000000000000000000,
   0.000000000000000000000000000000000000000000000000000000000000, -0.00380476867056961731984232686574547203016331563626856065717964,
   0.0106955064029624200721262602809059154469206077644957399593972, 0.0209616244499904333296674205928919920806734650660039898074652,
   -0.0233146023259321786648561431551978077665337818756053603898847, 0.00263265981064536974369934736325334761174975280887405725010964,
   0.00315472768977025060103545855572111407955208306374459723959783, 0.0194588815119755475588801096525317761242073762016273186231215,
   0.000000000000000000000000000000000000000000000000000000000000, 0.000000000000000000000000000000000000000000000000000000000000,
   0.000000000000000000000000000000000000000000000000000000000000, 0.000000000000000000000000000000000000000000000000000000000000,
   0.000000000000000000000000000000000000000000000000000000000000, 0.000000000000000000000000000000000000000000000000000000000000,
   0.000000000000000000000000000000000000000000000000000000000000, 0.0000678512949171812509306121653452367476194364781259165332321534,
   -0.0000429795859049273623271005330230162343568863387724883603675550, 0.0000176358982260285155407485928953302139937553442829975734148981,
   0.0653866627415027051009595231385181033549511358787382098351924, 0.206836835664277105916828174798272361078909196043446411598231,
   0.000000000000000000000000000000000000000000000000000000000000, 0.000000000000000000000000000000000000000000000000000000000000,
   0.000000000000000000000000000000000000000000000000000000000000, 0.000000000000000000000000000000000000000000000000000000000000,
   0.000000000000000000000000000000000000000000000000000000000000, 0.000000000000000000000000000000000000000000000000000000000000,
   0.000000000000000000000000000000000000000000000000000000000000, 0.0166796067104156472828045866664696450306326505094792505215514,
   -0.00879501563200710214457024178249986591130234990219959208704979, 0.00346675455362463910824462315246379209427513654098596403637231,
   -0.861264460105717678161432562258351242030270498966891201799225, 0.908651882074050281096239478469262145034957129939256789178785,
   0.0203926084654484010091511314676925686038504449562413004562382, 0.000000000000000000000000000000000000000000000000000000000000,
   0.000000000000000000000000000000000000000000000000000000000000, 0.000000000000000000000000000000000000000000000000000000000000,
   0.000000000000000000000000000000000000000000000000000000000000, 0.000000000000000000000000000000000000000000000000000000000000,
   0.000000000000000000000000000000000000000000000000000000000000, 0.000000000000000000000000000000000000000000000000000000000000,
   0.0869469392016685948675400555583947505833954460930940959577347, -0.0191649630410149842286436611791405053287170076602337673587681,
   0.00655629159493663287364871573244244516034828755253746024098838, 0.0987476128127434780903798528674033899738924968006632201445462,
   0.00535364695524996055083260173615567408717110247274021056118319, 0.301167864010967916837091303817051676920059229784957479998077,
   0.228410433917778099547115412893004398779136994596948545722283, 0.000000000000000000000000000000000000000000000000000000000000,
   0.000000000000000000000000000000000000000000000000000000000000, 0.000000000000000000000000000000000000000000000000000000000000,
   0.000000000000000000000000000000000000000000000000000000000000, 0.000000000000000000000000000000000000000000000000000000000000,
   0.000000000000000000000000000000000000000000000000000000000000, 0.000000000000000000000000000000000000000000000000000000000000,
   -0.498707400793025250635016567442511512138603770959682292383042, 0.134841168335724478552596703792570104791700727205981058201689,
   -0.0387458244055834158439904226924029230935161059142806805674360, -1.27473257473474844240388430824908952380979292713250350199641,
   1.43916364462877165201184452437038081875299303577911839630524, -0.214007467967990254219503540827349569639028092344812795499026,
   0.958202417754430239892724139109781371059908874605153648768037, 2.00222477655974203614249646012506747121440306225711721209798,
   0.000000000000000000000000000000000000000000000000000000000000, 0.000000000000000000000000000000000000000000000000000000000000,
   0.000000000000000000000000000000000000000000000000000000000000, 0.000000000000000000000000000000000000000000000000000000000000,
   0.000000000000000000000000000000000000000000000000000000000000, 0.000000000000000000000000000000000000000000000000000000000000,
   0.000000000000000000000000000000000000000000000000000000000000, 2.06701809961524912091954656438138595825411859673341600679555,
   0.623978136086139541957471279831494466155292316167021080663140, -0.0462283685500311430283203554129062069391947101880112723185773,
   -8.84973288362649614860075246727118949286604835457092701094630, 7.74257707850855976227437225791835589560188590785037197433615,
   -0.588358519250869210993353314127711745644125882130941202896436, -1.10683733362380649395704708016953056176195769617014899442903,
   -0.929529037579203999778397238291233214220788057511899747507074, 3.13789533412073442934451608989888796808161259330322100268310,
   0.000000000000000000000000000000000000000000000000000000000000, 0.000000000000000000000000000000000000000000000000000000000000,
   0.000000000000000000000000000000000000000000000000000000000000, 0.000000000000000000000000000000000000000000000000000000000000,
   0.129146941900176461970759579482746551122871751501482634045487, 1.53073638102311295076342566143214939031177504112433874313011,
   0.577874761129140052546751349454576715334892100418571882718036, 5.42088263055126683050056840891857421941300558851862156403363,
   0.231546926034829304872663800877643660904880180835945693836936, 0.0759292995578913560162301311785251873561801342333194895292058,
   -12.3729973380186513287414553402595806591349822617535905976253, 9.85455883464769543935957209317369202080367765721777101906955,
   0.0859111431370436529579357709052367772889980495122329601159540, -5.65242752862643921117182090081762761180392602644189218673969,
   -1.94300935242819610883833776782364287728724899124166920477873, -0.128352601849404542018428714319344620742146491335612353559923,
   1.38360054432196014878538118298167716825163268489922519995564, 0.000000000000000000000000000000000000000000000000000000000000,
   0.000000000000000000000000000000000000000000000000000000000000, 0.000000000000000000000000000000000000000000000000000000000000,
   0.000000000000000000000000000000000000000000000000000000000000, 0.00499528226645532360197793408420692800405891149406814091955810,
   0.397918238819828997341739603001347156083435060931424970826304, 0.427930210752576611068192608300897981558240730580396406312359,
   -1.30299107424475770916551439123047573342071475998399645982146, 0.661292278669377029097112528107513072734573412294008071500699,
   -0.144559774306954349765969393688703463900585822441545655530145, -6.96576034731798203467853867461083919356792248105919255460819,
   6.65808543235991748353408295542210450632193197576935120716437, -1.66997375108841486404695805725510845049807969199236227575796,
   2.06413702318035263832289040301832647130604651223986452170089, -0.674743962644306471862958129570837723192079875998405058648892,
   -0.00115618834794939500490703608435907610059605754935305582045729, -0.00544057908677007389319819914241631024660726585015012485938593,
   0.951236297048287669474637975894973552166903378983475425758226, 0.000000000000000000000000000000000000000000000000000000000000,
   0.000000000000000000000000000000000000000000000000000000000000, 0.000000000000000000000000000000000000000000000000000000000000,
   0.217050632197958486317846256953159942875916353757734167684657, 0.0137455792075966759812907801835048190594443990939408530842918,
   -0.0661095317267682844455831341498149531672668252085016565917546, 0.000000000000000000000000000000000000000000000000000000000000,
   0.152281696736414447136604697040747131921486432699422112099617, -0.337741018357599840802300793133998004354643424457539667670080,
   -0.0192825981633995781534949199286824400469353110630787982121133, -3.68259269696866809932409015535499603576312120746888880201882,
   3.16197870406982063541533528419683854018352080342887002331312, -0.370462522106885290716991856022051125477943482284080569177386,
   -0.0514974200365440434996434456698127984941168616474316871020314, -0.000829625532120152946787043541792848416659382675202720677536554,
   0.00000279801041419278598986586589070027583961355402640879503213503, 0.0418603916412360287969841020776788461794119440689356178942252,
   0.279084255090877355915660874555379649966282167560126269290222, 0.103364471650010477570395435690481791543342708330349879244197,
   0.000000000000000000000000000000000000000000000000000000000000, 0.000000000000000000000000000000000000000000000000000000000000,
   0.124053094528946761061581889237115328211074784955180298044074, 0.483171167561032899288836480451962508724109257517289177302380,
   -0.0387530245694763252085681443767620580395733302341368038804290, 0.000000000000000000000000000000000000000000000000000000000000,
   -0.438313820361122420391059788940960176420682836652600698580091, 0.000000000000000000000000000000000000000000000000000000000000,
   -0.218636633721676647685111485017151199362509373698288330593486, -0.0312334764394719229981634995206440349766174759626578122323015,
   0.000000000000000000000000000000000000000000000000000000000000, 0.000000000000000000000000000000000000000000000000000000000000,
   0.000000000000000000000000000000000000000000000000000000000000, 0.000000000000000000000000000000000000000000000000000000000000,
   0.000000000000000000000000000000000000000000000000000000000000, 0.000000000000000000000000000000000000000000000000000000000000,
   0.0312334764394719229981634995206440349766174759626578122323015, 0.218636633721676647685111485017151199362509373698288330593486,
   0.438313820361122420391059788940960176420682836652600698580091, 0.193333333333333333333333333333333333333333333333333333333333,
   0.000000000000000000000000000000000000000000000000000000000000, 0.220000000000000000000000000000000000000000000000000000000000,
   -0.0800000000000000000000000000000000000000000000000000000000000, 0.000000000000000000000000000000000000000000000000000000000000,
   0.000000000000000000000000000000000000000000000000000000000000, 0.0984256130499315928152900286856048243348202521491288575952143,
   -0.196410889223054653446526504390100417677539095340135532418849, 0.000000000000000000000000000000000000000000000000000000000000,
   0.436457930493068729391826122587949137609670676712525034763317, 0.0652613721675721098560370939805555698350543810708414716730270,
   0.000000000000000000000000000000000000000000000000000000000000, 0.000000000000000000000000000000000000000000000000000000000000,
   0.000000000000000000000000000000000000000000000000000000000000, 0.000000000000000000000000000000000000000000000000000000000000,
   0.000000000000000000000000000000000000000000000000000000000000, 0.000000000000000000000000000000000000000000000000000000000000,
   -0.0652613721675721098560370939805555698350543810708414716730270, -0.436457930493068729391826122587949137609670676712525034763317,
   0.196410889223054653446526504390100417677539095340135532418849, -0.0984256130499315928152900286856048243348202521491288575952143,
   -0.216049382716049382716049382716049382716049382716049382716049, 0.771604938271604938271604938271604938271604938271604938271605,
   0.000000000000000000000000000000000000000000000000000000000000, 0.000000000000000000000000000000000000000000000000000000000000,
   -0.666666666666666666666666666666666666666666666666666666666667, 0.000000000000000000000000000000000000000000000000000000000000,
   -0.390696469295978451446999802258495981249099665294395945559163, 0.000000000000000000000000000000000000000000000000000000000000,
   0.000000000000000000000000000000000000000000000000000000000000, 0.000000000000000000000000000000000000000000000000000000000000,
   0.000000000000000000000000000000000000000000000000000000000000, 0.000000000000000000000000000000000000000000000000000000000000,
   0.000000000000000000000000000000000000000000000000000000000000, 0.000000000000000000000000000000000000000000000000000000000000,
   0.000000000000000000000000000000000000000000000000000000000000, 0.000000000000000000000000000000000000000000000000000000000000,
   0.000000000000000000000000000000000000000000000000000000000000, 0.000000000000000000000000000000000000000000000000000000000000,
   0.000000000000000000000000000000000000000000000000000000000000, 0.000000000000000000000000000000000000000000000000000000000000,
   0.390696469295978451446999802258495981249099665294395945559163, 0.666666666666666666666666666666666666666666666666666666666667,
   0.200000000000000000000000000000000000000000000000000000000000, 0.000000000000000000000000000000000000000000000000000000000000,
   -0.164609053497942386831275720164609053497942386831275720164609, 0.000000000000000000000000000000000000000000000000000000000000,
   0.000000000000000000000000000000000000000000000000000000000000, 0.000000000000000000000000000000000000000000000000000000000000,
   0.000000000000000000000000000000000000000000000000000000000000, 0.000000000000000000000000000000000000000000000000000000000000,
   0.000000000000000000000000000000000000000000000000000000000000, 0.000000000000000000000000000000000000000000000000000000000000,
   0.000000000000000000000000000000000000000000000000000000000000, 0.000000000000000000000000000000000000000000000000000000000000,
   0.000000000000000000000000000000000000000000000000000000000000, 0.000000000000000000000000000000000000000000000000000000000000,
   0.000000000000000000000000000000000000000000000000000000000000, 0.000000000000000000000000000000000000000000000000000000000000,
   0.000000000000000000000000000000000000000000000000000000000000, 0.000000000000000000000000000000000000000000000000000000000000,
   0.000000000000000000000000000000000000000000000000000000000000, 0.000000000000000000000000000000000000000000000000000000000000,
   0.000000000000000000000000000000000000000000000000000000000000, 0.000000000000000000000000000000000000000000000000000000000000,
   0.164609053497942386831275720164609053497942386831275720164609, 1.47178724881110408452949550989023611293535315518571691939396,
   0.787500000000000000000000000000000000000000000000000000000000, 0.421296296296296296296296296296296296296296296296296296296296,
   0.000000000000000000000000000000000000000000000000000000000000, 0.291666666666666666666666666666666666666666666666666666666667,
   0.000000000000000000000000000000000000000000000000000000000000, 0.348600717628329563206854421629657569274689947367847465753757,
   0.229499544768994849582890233710555447073823569666506700662510, 5.79046485790481979159831978177003471098279506036722411333192,
   0.418587511856506868874073759426596207226461447604248151080016, 0.307039880222474002649653817490106690389251482313213999386651,
   -4.68700905350603332214256344683853248065574415794742040470287, 3.13571665593802262152038152399873856554395436199962915429076,
   1.40134829710965720817510506275620441055845017313930508348898, -5.52931101439499023629010306005764336421276055777658156400910,
   -0.853138235508063349309546894974784906188927508039552519557498, 0.103575780373610140411804607167772795518293914458500175573749,
   -0.140474416950600941142546901202132534870665923700034957196546, -0.418587511856506868874073759426596207226461447604248151080016,
   -0.229499544768994849582890233710555447073823569666506700662510, -0.348600717628329563206854421629657569274689947367847465753757,
   -0.291666666666666666666666666666666666666666666666666666666667, -0.421296296296296296296296296296296296296296296296296296296296,
   -0.787500000000000000000000000000000000000000000000000000000000]

/-- /repo/nbody/nbody_solver_rkfeagin12.cpp:23-26,39-449: the table. -/
def feagin12Tab : Tab ℚ where
  steps := 25
  rows := triangle 25 feagin12Data
  b1 :=
    [0.0238095238095238095238095238095238095238095238095238095238095, 0.0234375000000000000000000000000000000000000000000000000000000 + 49 / 640,
     0.0312500000000000000000000000000000000000000000000000000000000, 0.000000000000000000000000000000000000000000000000000000000000,
     0.0416666666666666666666666666666666666666666666666666666666667, 0.000000000000000000000000000000000000000000000000000000000000,
     0.0500000000000000000000000000000000000000000000000000000000000, 0.0500000000000000000000000000000000000000000000000000000000000,
     0.000000000000000000000000000000000000000000000000000000000000, 0.100000000000000000000000000000000000000000000000000000000000,
     0.0714285714285714285714285714285714285714285714285714285714286, 0.000000000000000000000000000000000000000000000000000000000000,
     0.138413023680782974005350203145033146748813640089941234591267, 0.215872690604931311708935511140681138965472074195773051123019,
     0.243809523809523809523809523809523809523809523809523809523810, 0.215872690604931311708935511140681138965472074195773051123019,
     0.138413023680782974005350203145033146748813640089941234591267, -0.0714285714285714285714285714285714285714285714285714285714286,
     -0.100000000000000000000000000000000000000000000000000000000000, -0.0500000000000000000000000000000000000000000000000000000000000,
     -0.0500000000000000000000000000000000000000000000000000000000000, -0.0416666666666666666666666666666666666666666666666666666666667,
     -0.0312500000000000000000000000000000000000000000000000000000000, -0.0234375000000000000000000000000000000000000000000000000000000 - 49 / 640,
     0.0238095238095238095238095238095238095238095238095238095238095]
  b2 :=
    [0.0238095238095238095238095238095238095238095238095238095238095, 0.0234375000000000000000000000000000000000000000000000000000000,
     0.0312500000000000000000000000000000000000000000000000000000000, 0.000000000000000000000000000000000000000000000000000000000000,
     0.0416666666666666666666666666666666666666666666666666666666667, 0.000000000000000000000000000000000000000000000000000000000000,
     0.0500000000000000000000000000000000000000000000000000000000000, 0.0500000000000000000000000000000000000000000000000000000000000,
     0.000000000000000000000000000000000000000000000000000000000000, 0.100000000000000000000000000000000000000000000000000000000000,
     0.0714285714285714285714285714285714285714285714285714285714286, 0.000000000000000000000000000000000000000000000000000000000000,
     0.138413023680782974005350203145033146748813640089941234591267, 0.215872690604931311708935511140681138965472074195773051123019,
     0.243809523809523809523809523809523809523809523809523809523810, 0.215872690604931311708935511140681138965472074195773051123019,
     0.138413023680782974005350203145033146748813640089941234591267, -0.0714285714285714285714285714285714285714285714285714285714286,
     -0.100000000000000000000000000000000000000000000000000000000000, -0.0500000000000000000000000000000000000000000000000000000000000,
     -0.0500000000000000000000000000000000000000000000000000000000000, -0.0416666666666666666666666666666666666666666666666666666666667,
     -0.0312500000000000000000000000000000000000000000000000000000000, -0.0234375000000000000000000000000000000000000000000000000000000,
     0.0238095238095238095238095238095238095238095238095238095238095]
  c :=
    [0.000000000000000000000000000000000000000000000000000000000000, 0.200000000000000000000000000000000000000000000000000000000000,
     0.555555555555555555555555555555555555555555555555555555555556, 0.833333333333333333333333333333333333333333333333333333333333,
     0.333333333333333333333333333333333333333333333333333333333333, 1.00000000000000000000000000000000000000000000000000000000000,
     0.671835709170513812712245661002797570438953420568682550710222, 0.288724941110620201935458488967024976908118598341806976469674,
     0.562500000000000000000000000000000000000000000000000000000000, 0.833333333333333333333333333333333333333333333333333333333333,
     0.947695431179199287562380162101836721649589325892740646458322, 0.0548112876863802643887753674810754475842153612931128785028369,
     0.0848880518607165350639838930162674302064148175640019542045934, 0.265575603264642893098114059045616835297201264164077621448665,
     0.500000000000000000000000000000000000000000000000000000000000, 0.734424396735357106901885940954383164702798735835922378551335,
     0.915111948139283464936016106983732569793585182435998045795407, 0.947695431179199287562380162101836721649589325892740646458322,
     0.833333333333333333333333333333333333333333333333333333333333, 0.288724941110620201935458488967024976908118598341806976469674,
     0.671835709170513812712245661002797570438953420568682550710222, 0.333333333333333333333333333333333333333333333333333333333333,
     0.555555555555555555555555555555555555555555555555555555555556, 0.20000000000000000000000000000000000000000000000000000000000,
     1.00000000000000000000000000000000000000000000000000000000000]
  implicit := false
  embedded := true

/-- /repo/nbody/nbody_solver_rkfeagin14.cpp:38-684, `data`. -/
def feagin14Data : List ℚ :=
  [0, 0.111111111111111111111111111111111111111111111111111111111111, -0.833333333333333333333333333333333333333333333333333333333333,
   1.38888888888888888888888888888888888888888888888888888888889, 0.208333333333333333333333333333333333333333333333333333333333,
   0, 0.625000000000000000000000000000000000000000000000000000000000, 0.193333333333333333333333333333333333333333333333333333333333,
   0, 0.220000000000000000000000000000000000000000000000000000000000, -0.0800000000000000000000000000000000000000000000000000000000000,
   0.100000000000000000000000000000000000000000000000000000000000, 0, 0, 0.400000000000000000000000000000000000000000000000000000000000,
   0.500000000000000000000000000000000000000000000000000000000000, 0.103484561636679776672993546511910344499744798201971316606663,
   0, 0, 0.122068887306407222589644082868962077139592714834162134741275, 0.482574490331246622475134780125688112865919023850168049679402,
   -0.0381409600015606999730886240005620205664113072478411477421970, 0.124380526654094412881516420868799316268491466359671423163289,
   0, 0, 0, 0.226120282197584301422238662979202901196752320742633143965145, 0.0137885887618080880607695837016477814530969417491493385363543,
   -0.0672210133996684449749399507414305856950086341525382182856200, 0.0936919065659673815530885456083005933866349695217750085655603,
   0, 0, 0, 0, -0.00613406843450510987229498995641664735620914507128858871007099, 0.216019825625503063708860097659866573490979433278117320188668,
   0.423695063515761937337619073960976753205867469544123532683116, 0.0838479812409052664616968791372814085980533139224911131069335,
   0, 0, 0, 0, -0.0117949367100973814319755056031295775367961960590736150777613, -0.247299020568812652339473838743194598325992840353340132697498,
   0.0978080858367729012259313014081291665503740655476733940756599, 0.217590689243420631360008651767860318344168120024782176879989,
   0.0615255359769428227954562389614314714333423969064821107453940, 0, 0, 0, 0, 0.00592232780324503308042990005798046524738389560444257136834990,
   0.470326159963841112217224303205894113455362530746108825010848, 0.299688863848679000853981837096192399136831121671781279184194,
   -0.247656877593994914689992276329810825853958069263947095548189, 0.110895029771437682893999851839061714522445173600678718208625,
   0.0419700073362782579861792864787277787213483656543104611245994, 0, 0, 0, 0, -0.00317987696266205093901912847692712407988609169703103952205634,
   0.806397714906192077260821711520379506393543111567419750119748, 0.0975983126412388979093522850684288851314672048003054550357187,
   0.778575578158398909027512446452927238999763460594181964958853, 0.204890423831599428189499202098105603312029235081420653574829,
   -1.56261579627468188307070943950527825211462892236424360892806, 0.0437726782233730163574465242495339811688214967071614123256973,
   0, 0, 0, 0, 0, 0, 0, 0.00624365027520195208794358628580933625281631216903095917201250, 0.200043097109577314994435165469647856829066232218264969608768,
   -0.00805328367804983036823857162048902911923392887337029314844206, 0.0211517528067396521915711903523399601316877825157550573051221,
   0.0283499250363514563095023591920717312247137654896477097768495, 0, 0, 0, 0, 0, 0, 0, 0.00249163204855817407538949148805995149459884653585417680098222,
   0.0230138787854593149638399846373742768772087122638142234223658, -0.00322155956692977098724476092467120878189463604760620461043308,
   0.00988442549447664668946335414487885256040819982786014648129297, -0.0213010771328887351384307642875927384886634565429572466632092,
   0.343511894290243001049432234735147943083353174980701426268122, 0, 0, 0, 0, 0, 0, 0, 0.210451912023627385609097011999010655788807405225626700040882,
   1.03427452057230411936482926828825709938667999698324740166559, 0.00600303645864422487051240448206640574939078092406156945568306,
   0.855938125099619537578012106002407728915062652616416005816477, -0.977235005036766810872264852372525633013107656892839677696022,
   -0.660026980479294694616225013856327693720573981219974874776419, -0.0143574001672168069538206399935076366657755954378399880691949,
   0, 0, 0, 0, 0, 0, 0, -0.0366253270049039970293685796848974791733119081733552207318285, 0.0350254975636213681976849406979846524346789082471103574920148,
   0.0360946016362113508931786658758335239823689929864237671348749, -0.0265219967553681106351595946834601923649627012457464284442911,
   0.0445699011305698119638911537508839908104336323082226770910408, 0.124343093331358243286225595741786448038973408895106741855721,
   0.00413829693239480694403512496204335960426192908674476033832967, 0.356032404425120290975609116398089176264106222379748802654822,
   0, 0, 0, 0, 0, 0, 0, -0.450192758947562595966821779075956175110645100214763601190349, 0.430527907083710898626656292808782917793030154094709462877146,
   0.511973029011022237668556960394071692077125787030651386389972, 0.908303638886404260390159124638110213997496214819904630546596,
   -1.23921093371933931757372469151534028854413889248605726186520, -0.649048661671761465141672348879062553905402831967191097656668,
   0.251708904586819292210480529948970541404887852931447491219418, 0.779906470345586398810756795282334476023540593411550187024263,
   0.0130935687406513066406881206418834980127470438213192487844956, 0, 0, 0, 0, 0, 0, 0, 0,
   0, 0, 0, -0.0000932053067985113945908461962767108237858631509684667142124826, 0.0505374334262299359640090443138590726770942344716122381702746,
   8.04470341944487979109579109610197797641311868930865361048975e-7, 0.000591726029494171190528755742777717259844340971924321528178248,
   -4.01614722154557337064691684906375587732264247950093804676867e-7, 0.0207926484466053012541944544000765652167255206144373407979758,
   0, 0, 0, 0, 0, 0, 0, 0, 0, 0, 0, 0.000582695918800085915101902697837284108951406103029871570103075,
   -0.00801700732358815939083342186525852746640558465919633524655451, 4.03847643847136940375170821743560570484117290330895506618968e-6,
   0.0854609998055506144225056114567535602510114622033622491802597, -2.04486480935804242706707569691004307904442837552677456232848e-6,
   0.105328578824431893399799402979093997354240904235172843146582, 1.40153449795736021415446247355771306718486452917597731683689,
   0, 0, 0, 0, 0, 0, 0, 0, 0, 0, 0, -0.230252000984221261616272410367415621261130298274455611733277,
   -7.21106840466912905659582237106874247165856493509961561958267, 0.00372901560694836335236995327852132340217759566678662385552634,
   -4.71415495727125020678778179392224757011323373221820091641216, -0.00176367657545349242053841995032797673574903886695600132759652,
   7.64130548038698765563029310880237651185173367813936997648198, 3.50602043659751834989896082949744710968212949893375368243588,
   11.9514650694120686799372385830716401674473610826553517297976, 0, 0, 0, 0, 0, 0, 0, 0, 0,
   0, 0, 7.79480932108175968783516700231764388220284279598980948538579, -56.4501393867325792523560991120904281440468100061340556540132,
   0.0912376306930644901344530449290276645709607450403673704844997, -12.7336279925434886201945524309199275038162717529918963305155,
   -0.0396895921904719712313542810939736674712383070433147873009352, 54.4392141883570886996225765155307791861438378423305337073797,
   -3.64411637921569236846406990361350645806721478409266709351203, -0.804503249910509910899030787958579499315694913210787878260459,
   -148.809426507100488427838868268647625561930612082148597076690, 0, 0, 0, 0, 0, 0, 0, 0,
   0, 0, 0, -91.7295278291256484357935662402321623495228729036354276506427, 707.656144971598359834575719286335716154821128966649565194286,
   -1.10563611857482440905296961311590930801338308942637769555540, 176.134591883811372587859898076055660406999516762301689616841,
   0.491384824214880662268898345164454557416884631402764792538746, -684.278000449814944358237535610895081956077167893600278300805,
   27.9910604998398258984224332124380407446002518400668657974589, 13.1939710030282333443670964371153238435064159623744975073252,
   1.25128781283980445450114974148056006317268830077396406361417, -9.67307946948196763644126118433219395839951408571877262880482,
   0, 0, 0, 0, 0, 0, 0, 0, 0, 0, 0, -4.46990150858505531443846227701960360497830681408751431146712,
   45.5127128690952681968241950400052751178905907817398483534845, -0.0713085086183826912791492024438246129930559805352394367050813,
   11.2273614068412741582590624479939384207826800776794485051540, 0.126244376717622724516237912909138809361786889819105426371393,
   -43.5439339549483313605810624907242107623814304467621407753424, 0.787174307543058978398792994996550902064546091443233850464377,
   0.532264696744684215669300708603886690785395776821503851830821, 0.422422733996325326010225127471388772575086538809603346825334,
   0.0859131249503067107308438031499859443441115056294154956487671, -10.0664032447054702403396606900426891472202824757968765569183,
   0, 0, 0, 0, 0, 0, 0, -0.0366253270049039970293685796848974791733119081733552207318285, 0.0350254975636213681976849406979846524346789082471103574920148,
   0.0360946016362113508931786658758335239823689929864237671348749, -0.0265219967553681106351595946834601923649627012457464284442911,
   -6.27088972181464143590553149478871603839356122957396018530209, 48.2079237442562989090702103008195063923492593141636117832993,
   -0.0694471689136165640882395180583732834557754169149088630301342, 12.6810690204850295698341370913609807066108483811412127009785,
   0.0119671168968323754838161435501011294100927813964199613229864, -46.7249764992482408003358268242662695593201321659795608950429,
   1.33029613326626711314710039298216591399033511191227101321435, 1.00766787503398298353438903619926657771162717793661719708370,
   0.0209512051933665091664122388475480702892770753864487241177616, 0.0210134706331264177317735424331396407424412188443757490871603,
   0.00952196014417121794175101542454575907376360233658356240547761, -409.478081677743708772589097409370357624424341606752069725341,
   0, 0, 0, 0, 0, 0, 0, 0.210451912023627385609097011999010655788807405225626700040882, 1.03427452057230411936482926828825709938667999698324740166559,
   0.00600303645864422487051240448206640574939078092406156945568306, 0.855938125099619537578012106002407728915062652616416005816477,
   -250.516998547447860492777657729316130386584050420782075966990, 1946.42466652388427766053750328264758595829850895761428240231,
   -3.04503882102310365506105809086860882786950544097602101685174, 490.626379528281713521208265299168083841598542274061671576230,
   1.56647589531270907115484067013597445739595615245966775329993, -1881.97428994011173362217267377035870619215906638453056643641,
   75.2592224724847175278837713643303149821620618914245864351135, 34.5734356980331067622434344736554689696728644793551014989002,
   3.21147679440968961435417361847073755169022966748891627882572, -0.460408041738414391307201404237058848867245095265382820823055,
   -0.0870718339841810522431884137957986245724252047388936572215438, -7.39351814158303067567016952195521063999185773249132944724553,
   3.43347475853550878921093496257596781120623891072008459930197, 0, 0, 0, 0, 0, 0, 0, 0.00249163204855817407538949148805995149459884653585417680098222,
   0.0230138787854593149638399846373742768772087122638142234223658, -0.00322155956692977098724476092467120878189463604760620461043308,
   0.00988442549447664668946335414487885256040819982786014648129297, 2.16252799377922507788307841904757354045759225335732707916530,
   -16.2699864546457421328065640660139489006987552040228852402716, -0.128534502120524552843583417470935010538029037542654506231743,
   -8.98915042666504253089307820833379330486511746063552853023189, -0.00348595363232025333387080201851013650192401767250513765000963,
   15.7936194113339807536235187388695574135853387025139738341334, -0.574403330914095065628165482017335820148383663195675408024658,
   -0.345602039021393296692722496608124982535237228827655306030152, -0.00662241490206585091731619991383757781133067992707418687587487,
   -0.00777788129242204164032546458607364309759347209626759111946150, -0.00356084192402274913338827232697437364675240818791706587952939,
   4.79282506449930799649797749629840189457296934139359048988332, 0.153725464873068577844576387402512082757034273069877432944621,
   32.3038520871985442326994734440031535091364975047784630088983, 0, 0, 0, 0, -0.00317987696266205093901912847692712407988609169703103952205634,
   0.806397714906192077260821711520379506393543111567419750119748, 0.0975983126412388979093522850684288851314672048003054550357187,
   0.778575578158398909027512446452927238999763460594181964958853, 0.204890423831599428189499202098105603312029235081420653574829,
   -1.56261579627468188307070943950527825211462892236424360892806, 0, 16.3429891882310570648504243973927174708753353504154550405647,
   -154.544555293543621230730189631471036399316683669609116705323, 1.56971088703334872692034283417621761466263593582497085955201,
   3.27685545087248131321429817269900731165522404974733504794135, -0.0503489245193653176348040727199783626534081095691632396802451,
   153.321151858041665070593767885914694011224363102594556731397, 7.17568186327720495846766484814784143567826308034865369443637,
   -2.94036748675300481945917659896930989215320594380777597403592, -0.0665845946076803144470749676022628870281920493197256887985612,
   -0.0462346054990843661229248668562217261176966514016859284197145, -0.0204198733585679401539388228617269778848579774821581777675337,
   -53.3523106438735850515953441165998107974045090495791591218714, -1.35548714715078654978732186705996404017554501614191325114947,
   -1.57196275801232751882901735171459249177687219114442583461866, -16.6451467486341512872031294403931758764560371130818978459405,
   0, 0, 0, 0, 0.00592232780324503308042990005798046524738389560444257136834990, 0.470326159963841112217224303205894113455362530746108825010848,
   0.299688863848679000853981837096192399136831121671781279184194, -0.247656877593994914689992276329810825853958069263947095548189,
   0.110895029771437682893999851839061714522445173600678718208625, 0, -0.491719043846229147070666628704194097678081907210673044988866,
   -11.4743154427289496968389492564352536350842454130853175250727, 80.2593166576230272541702485886484400152793366623589989106256,
   -0.384132303980042847625312526759029103746926841342088219165648, 7.28147667468107583471326950926136115767612581862877764249646,
   -0.132699384612248379510571708176035274836827341616751884314074, -81.0799832525730726674679289752255240006070716633632990308935,
   -1.25037492835620639521768185656179119962253747492403205797494, 2.59263594969543681023776379504377324994226447359296887778718,
   -0.301440298346404539830163997260526875264431537275641495291993, 0.221384460789832337451706451572773791695246839057318414301020,
   0.0827577274771892931955989870974693152996276435429809890551210, 18.9960662040611520464672450037243263998175161412237156872211,
   0.269231946409639685623468015128334167460051910348912845121977, 1.62674827447066537462989364929628933988125029284183680279020,
   0.491719043846229147070666628704194097678081907210673044988866, 0.0838479812409052664616968791372814085980533139224911131069335,
   0, 0, 0, 0, -0.0117949367100973814319755056031295775367961960590736150777613, -0.247299020568812652339473838743194598325992840353340132697498,
   0.0978080858367729012259313014081291665503740655476733940756599, 0.217590689243420631360008651767860318344168120024782176879989,
   0, 0.137585606763325224865659632196787746647447222975084865975440, 0.0439870229715046685058790092341545026046103890294261359042581,
   0, -0.513700813768193341957004456618630303738757363641964030086972, 0.826355691151315508644211308399153458701423158616168576922372,
   25.7018139719811832625873882972519939511136556341960074626615, 0, 0, 0, 0, 0, 0, 0, -25.7018139719811832625873882972519939511136556341960074626615,
   -0.826355691151315508644211308399153458701423158616168576922372, 0.513700813768193341957004456618630303738757363641964030086972,
   -0.0439870229715046685058790092341545026046103890294261359042581, -0.137585606763325224865659632196787746647447222975084865975440,
   0.124380526654094412881516420868799316268491466359671423163289, 0, 0, 0, 0.226120282197584301422238662979202901196752320742633143965145,
   0.0137885887618080880607695837016477814530969417491493385363543, -0.0672210133996684449749399507414305856950086341525382182856200,
   0, 0, -0.856238975085428354755349769879501772112121597411563802855067, -1.96337522866858908928262850028093813988180440518267404553576,
   -0.232332822724119401237246257308921847250108199230419994978218, 0, 4.30660719086453349461668936876562947772432562053478092626764,
   -2.92722963249465482659787911202390446687687394950633612630592, -82.3131666397858944454492334105458707735761966428138676971041,
   0, 0, 0, 0, 0, 0, 0, 82.3131666397858944454492334105458707735761966428138676971041, 2.92722963249465482659787911202390446687687394950633612630592,
   -4.30660719086453349461668936876562947772432562053478092626764, 0.232332822724119401237246257308921847250108199230419994978218,
   1.96337522866858908928262850028093813988180440518267404553576, 0.856238975085428354755349769879501772112121597411563802855067,
   0.103484561636679776672993546511910344499744798201971316606663, 0, 0, 0.122068887306407222589644082868962077139592714834162134741275,
   0.482574490331246622475134780125688112865919023850168049679402, -0.0381409600015606999730886240005620205664113072478411477421970,
   0, -0.550499525310802324138388507020508177411414311000037561712836, 0, -0.711915811585189227887648262043794387578291882406745570495765,
   -0.584129605671551340432988730158480872095335329645227595707052, 0, 0, 2.11046308125864932128717300046622750300375054278936987850718,
   -0.0837494736739572135525742023001037992695260175335123517729291, 5.10021499072320914075295969043344113107545060862804249161191,
   0, 0, 0, 0, 0, 0, 0, -5.10021499072320914075295969043344113107545060862804249161191, 0.0837494736739572135525742023001037992695260175335123517729291,
   -2.11046308125864932128717300046622750300375054278936987850718, 0, 0.584129605671551340432988730158480872095335329645227595707052,
   0.711915811585189227887648262043794387578291882406745570495765, 0.550499525310802324138388507020508177411414311000037561712836,
   0.193333333333333333333333333333333333333333333333333333333333, 0, 0.220000000000000000000000000000000000000000000000000000000000,
   -0.0800000000000000000000000000000000000000000000000000000000000, 0, 0, 0.109993425580724703919462404865068340845119058295846426463652,
   -0.254297048076270161384068506997153122141835626976703920846242, 0, 0.865570777116694254343770343821098281832847401233011859346737,
   3.32416449114093083106799552786572018336860092936986407160200, 0, 0, -12.0102223315977933882352385148661841260301942633996815127277,
   0.476601466242493239430442776862061899602963782003580209476163, -29.0243011221036390525802623213654099596251221332470910692353,
   0, 0, 0, 0, 0, 0, 0, 29.0243011221036390525802623213654099596251221332470910692353, -0.476601466242493239430442776862061899602963782003580209476163,
   12.0102223315977933882352385148661841260301942633996815127277, 0, -3.32416449114093083106799552786572018336860092936986407160200,
   -0.865570777116694254343770343821098281832847401233011859346737, 0.254297048076270161384068506997153122141835626976703920846242,
   -0.109993425580724703919462404865068340845119058295846426463652, -0.833333333333333333333333333333333333333333333333333333333333,
   1.38888888888888888888888888888888888888888888888888888888889, 0, 0, -0.750000000000000000000000000000000000000000000000000000000000,
   0, -0.492529543718026304422682049114021320200214681580657784719074, 0, 0, 0, 0, 0, 0, 0,
   0, 0, 0, 0, 0, 0, 0, 0, 0, 0, 0, 0, 0, 0, 0, 0, 0.492529543718026304422682049114021320200214681580657784719074,
   0.750000000000000000000000000000000000000000000000000000000000, 0.111111111111111111111111111111111111111111111111111111111111,
   0, -0.222222222222222222222222222222222222222222222222222222222222, 0, 0, 0, 0, 0, 0, 0,
   0, 0, 0, 0, 0, 0, 0, 0, 0, 0, 0, 0, 0, 0, 0, 0, 0, 0, 0, 0, 0, 0, 0.222222222222222222222222222222222222222222222222222222222222,
   0.285835140388971558796088842163836414852927537894596466840753, 0.291666666666666666666666666666666666666666666666666666666667,
   0.218750000000000000000000000000000000000000000000000000000000, 0, 0.164062500000000000000000000000000000000000000000000000000000,
   0, 0.218194354945556658327188241581352107093288824322187941141516, 0.180392898478697766863635221946775437719620053641849228562435,
   0, 0.205713839404845018859120755122929542277570094982808905393991, 0.242715791581770239970282927959446515762745971386670541948576,
   0.246465780813629305833609291181891407799228103869305705137021, -3.44991940790890824979834154601622662060370460614931644223924,
   0.228875562160036081760729060738458584294220372552740218459295, 0.283290599702151415321527419056733335978436595493855789831434,
   3.21085125837766640960131490544236787005557320332238705967955, -0.223538777364845699920233756214162507964125230083674032084065,
   -0.707121157204419073518727286207487212130091231955206160635271, 3.21123345150287080408174729202856500893260034443022374267639,
   1.40954348309669766030414474301123175769045945573548986335553, -0.151362053443742613121602276742518111090963026203676055891793,
   0.372350574527014276454724080214619984397121028202148298716575, 0.252978746406361336722199907762141285915775728129414319261111,
   -3.21085125837766640960131490544236787005557320332238705967955, -0.283290599702151415321527419056733335978436595493855789831434,
   -0.228875562160036081760729060738458584294220372552740218459295, -0.246465780813629305833609291181891407799228103869305705137021,
   -0.242715791581770239970282927959446515762745971386670541948576, -0.205713839404845018859120755122929542277570094982808905393991,
   -0.180392898478697766863635221946775437719620053641849228562435, -0.218194354945556658327188241581352107093288824322187941141516,
   -0.164062500000000000000000000000000000000000000000000000000000, -0.218750000000000000000000000000000000000000000000000000000000,
   -0.291666666666666666666666666666666666666666666666666666666667]

/-- /repo/nbody/nbody_solver_rkfeagin14.cpp:22-25,38-771: the table. -/
def feagin14Tab : Tab ℚ where
  steps := 35
  rows := triangle 35 feagin14Data
  b1 :=
    [0.0178571428571428571428571428571428571428571428571428571428571, 0.00585937500000000000000000000000000000000000000000000000000000 + 1 / 1000,
     0.0117187500000000000000000000000000000000000000000000000000000, 0, 0.0175781250000000000000000000000000000000000000000000000000000,
     0, 0.0234375000000000000000000000000000000000000000000000000000000, 0.0292968750000000000000000000000000000000000000000000000000000,
     0, 0.0351562500000000000000000000000000000000000000000000000000000, 0.0410156250000000000000000000000000000000000000000000000000000,
     0.0468750000000000000000000000000000000000000000000000000000000, 0, 0.0527343750000000000000000000000000000000000000000000000000000,
     0.0585937500000000000000000000000000000000000000000000000000000, 0.0644531250000000000000000000000000000000000000000000000000000,
     0, 0.105352113571753019691496032887878162227673083080523884041670, 0.170561346241752182382120338553874085887555487802790804737501,
     0.206229397329351940783526485701104894741914286259542454077972, 0.206229397329351940783526485701104894741914286259542454077972,
     0.170561346241752182382120338553874085887555487802790804737501, 0.105352113571753019691496032887878162227673083080523884041670,
     -0.0644531250000000000000000000000000000000000000000000000000000, -0.0585937500000000000000000000000000000000000000000000000000000,
     -0.0527343750000000000000000000000000000000000000000000000000000, -0.0468750000000000000000000000000000000000000000000000000000000,
     -0.0410156250000000000000000000000000000000000000000000000000000, -0.0351562500000000000000000000000000000000000000000000000000000,
     -0.0292968750000000000000000000000000000000000000000000000000000, -0.0234375000000000000000000000000000000000000000000000000000000,
     -0.0175781250000000000000000000000000000000000000000000000000000, -0.0117187500000000000000000000000000000000000000000000000000000,
     -0.00585937500000000000000000000000000000000000000000000000000000 - 1 / 1000, 0.0178571428571428571428571428571428571428571428571428571428571]
  b2 :=
    [0.0178571428571428571428571428571428571428571428571428571428571, 0.00585937500000000000000000000000000000000000000000000000000000,
     0.0117187500000000000000000000000000000000000000000000000000000, 0, 0.0175781250000000000000000000000000000000000000000000000000000,
     0, 0.0234375000000000000000000000000000000000000000000000000000000, 0.0292968750000000000000000000000000000000000000000000000000000,
     0, 0.0351562500000000000000000000000000000000000000000000000000000, 0.0410156250000000000000000000000000000000000000000000000000000,
     0.0468750000000000000000000000000000000000000000000000000000000, 0, 0.0527343750000000000000000000000000000000000000000000000000000,
     0.0585937500000000000000000000000000000000000000000000000000000, 0.0644531250000000000000000000000000000000000000000000000000000,
     0, 0.105352113571753019691496032887878162227673083080523884041670, 0.170561346241752182382120338553874085887555487802790804737501,
     0.206229397329351940783526485701104894741914286259542454077972, 0.206229397329351940783526485701104894741914286259542454077972,
     0.170561346241752182382120338553874085887555487802790804737501, 0.105352113571753019691496032887878162227673083080523884041670,
     -0.0644531250000000000000000000000000000000000000000000000000000, -0.0585937500000000000000000000000000000000000000000000000000000,
     -0.0527343750000000000000000000000000000000000000000000000000000, -0.0468750000000000000000000000000000000000000000000000000000000,
     -0.0410156250000000000000000000000000000000000000000000000000000, -0.0351562500000000000000000000000000000000000000000000000000000,
     -0.0292968750000000000000000000000000000000000000000000000000000, -0.0234375000000000000000000000000000000000000000000000000000000,
     -0.0175781250000000000000000000000000000000000000000000000000000, -0.0117187500000000000000000000000000000000000000000000000000000,
     -0.00585937500000000000000000000000000000000000000000000000000000, 0.0178571428571428571428571428571428571428571428571428571428571]
  c :=
    [0.000000000000000000000000000000000000000000000000000000000000, 0.111111111111111111111111111111111111111111111111111111111111,
     0.555555555555555555555555555555555555555555555555555555555556, 0.833333333333333333333333333333333333333333333333333333333333,
     0.333333333333333333333333333333333333333333333333333333333333, 1.00000000000000000000000000000000000000000000000000000000000,
     0.669986979272772921764683785505998513938845229638460353285142, 0.297068384213818357389584716808219413223332094698915687379168,
     0.727272727272727272727272727272727272727272727272727272727273, 0.140152799042188765276187487966946717629806463082532936287323,
     0.700701039770150737151099854830749337941407049265546408969222, 0.363636363636363636363636363636363636363636363636363636363636,
     0.263157894736842105263157894736842105263157894736842105263158, 0.0392172246650270859125196642501208648863714315266128052078483,
     0.812917502928376762983393159278036506189612372617238550774312, 0.166666666666666666666666666666666666666666666666666666666667,
     0.900000000000000000000000000000000000000000000000000000000000, 0.0641299257451966923312771193896682809481096651615083225402924,
     0.204149909283428848927744634301023405027149505241333751628870, 0.395350391048760565615671369827324372352227297456659450554577,
     0.604649608951239434384328630172675627647772702543340549445423, 0.795850090716571151072255365698976594972850494758666248371130,
     0.935870074254803307668722880610331719051890334838491677459708, 0.166666666666666666666666666666666666666666666666666666666667,
     0.812917502928376762983393159278036506189612372617238550774312, 0.0392172246650270859125196642501208648863714315266128052078483,
     0.363636363636363636363636363636363636363636363636363636363636, 0.700701039770150737151099854830749337941407049265546408969222,
     0.140152799042188765276187487966946717629806463082532936287323, 0.297068384213818357389584716808219413223332094698915687379168,
     0.669986979272772921764683785505998513938845229638460353285142, 0.333333333333333333333333333333333333333333333333333333333333,
     0.555555555555555555555555555555555555555555555555555555555556, 0.111111111111111111111111111111111111111111111111111111111111,
     1.00000000000000000000000000000000000000000000000000000000000]
  implicit := false
  embedded := true

end NB
