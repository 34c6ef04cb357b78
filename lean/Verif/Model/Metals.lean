import Verif.Model.SceneDriver
import Verif.Model.Color
import Verif.Model.Specular

/-
Model of the constants of the metals (src/materials/metals.hpp) and of their use by a metallic material
(src/parsers/config_driver.cpp:462-470).  The numbers are the decimals of the source, not rounded to binary32.
-/

namespace Spectre.Metals

open Spectre.Scene

/-- `METALS`, metals.hpp:75-1093: refraction indices and absorptions. -/
def table : List (List ℚ × List ℚ) := [
  -- SILVER, 76-110
  (
     [0.049347531050443649, 0.041602473706007004, 0.041009880602359772, 0.048415124416351318,
      0.050000000745058060, 0.050000004470348358, 0.053292501717805862, 0.058362640440464020,
      0.053611941635608673, 0.052341341972351074, 0.057906620204448700, 0.056908659636974335,
      0.052224893122911453, 0.047666668891906738, 0.043222222477197647, 0.038946233689785004],
     [2.2301845550537109, 2.4536008834838867, 2.6500174999237061, 2.8523058891296387, 3.0390980243682861,
      3.2232837677001953, 3.4100761413574219, 3.5948910713195801, 3.7597548961639404, 3.9249725341796875,
      4.0942010879516602, 4.2543230056762695, 4.4093589782714844, 4.5658330917358398, 4.7236108779907227,
      4.8811230659484863]),
  -- ALUMINIUM, 111-145
  (
     [0.51354420185089111, 0.57037156820297241, 0.63335359096527100, 0.70365858078002930, 0.77591800689697266,
      0.84938037395477295, 0.93028640747070312, 1.01519179344177250, 1.10655558109283450, 1.21029591560363770,
      1.31434142589569090, 1.43030822277069090, 1.55902600288391110, 1.69751429557800290, 1.84196209907531740,
      2.0029783248901367],
     [4.9599561691284180, 5.2085542678833008, 5.4542770385742188, 5.6952328681945801, 5.9313440322875977,
      6.1647310256958008, 6.3964543342590332, 6.6272826194763184, 6.8546180725097656, 7.0752577781677246,
      7.2957329750061035, 7.5080804824829102, 7.7104082107543945, 7.8930425643920898, 8.0657701492309570,
      8.2151412963867188]),
  -- GOLD, 146-180
  (
     [1.46212887763977050, 1.44386053085327150, 1.38312280178070070, 1.30071735382080080, 1.10259127616882320,
      0.80312025547027588, 0.55778276920318604, 0.42910495400428772, 0.34056714177131653, 0.27199321985244751,
      0.22584775090217590, 0.18836064636707306, 0.15558262169361115, 0.13766665756702423, 0.13322222232818604,
      0.13127875328063965],
     [1.9556787014007568, 1.9458420276641846, 1.9123861789703369, 1.8580939769744873, 1.8412964344024658,
      1.9728720188140869, 2.2039384841918945, 2.4696044921875000, 2.7156329154968262, 2.9560720920562744,
      3.1913807392120361, 3.4033818244934082, 3.6024391651153564, 3.7917332649230957, 3.9721779823303223,
      4.1496315002441406]),
  -- COPPER, 181-215
  (
     [1.28916776180267330, 1.25370144844055180, 1.24246585369110110, 1.24615097045898440, 1.22706675529479980,
      1.19744002819061280, 1.12735247611999510, 0.99964505434036255, 0.81558209657669067, 0.60871571302413940,
      0.38085740804672241, 0.27526932954788208, 0.23780889809131622, 0.21766665577888489, 0.21322222054004669,
      0.21361127495765686],
     [2.1880841255187988, 2.2994711399078369, 2.3922898769378662, 2.4754829406738281, 2.5438442230224609,
      2.5888161659240723, 2.5977578163146973, 2.5913863182067871, 2.6581282615661621, 2.8192343711853027,
      3.1063749790191650, 3.3725504875183105, 3.6263988018035889, 3.8538665771484375, 4.0574221611022949,
      4.2534952163696289]),
  -- IRON, 216-250
  (
     [2.3298003673553467, 2.4692902565002441, 2.5814623832702637, 2.6635699272155762, 2.7239997386932373,
      2.8071999549865723, 2.8888890743255615, 2.9425745010375977, 2.943636417388916, 2.9261448383331299,
      2.8926002979278564, 2.892380952835083, 2.9113717079162598, 2.9053330421447754, 2.8786664009094238,
      2.8617641925811768],
     [2.63559889793396, 2.7059917449951172, 2.7659873962402344, 2.8172974586486816, 2.8651199340820312,
      2.8968000411987305, 2.9164166450500488, 2.934053897857666, 2.9681816101074219, 3.0037038326263428,
      3.0378820896148682, 3.0654761791229248, 3.0893058776855469, 3.1219997406005859, 3.1619999408721924,
      3.2002768516540527]),
  -- MERCURY, 251-286
  (
     [0.88590449094772339, 0.97105371952056885, 1.0606544017791748, 1.1540451049804688, 1.2512437105178833,
      1.3505761623382568, 1.451107382774353, 1.5522829294204712, 1.6539245843887329, 1.7564575672149658,
      1.8590126037597656, 1.9646539688110352, 2.0733327865600586, 2.182011604309082, 2.2904751300811768,
      2.3979113101959229],
     [3.5062422752380371, 3.6874237060546875, 3.8626887798309326, 4.0317068099975586, 4.1943845748901367,
      4.3533735275268555, 4.5043601989746094, 4.6510467529296875, 4.7960143089294434, 4.9376955032348633,
      5.0792956352233887, 5.2128019332885742, 5.3383426666259766, 5.4638824462890625, 5.5869340896606445,
      5.6981401443481445]),
  -- LEAD, 287-322
  (
     [0.32494312524795532, 0.35549980401992798, 0.38853448629379272, 0.42940217256546021, 0.47228997945785522,
      0.53054171800613403, 0.59616303443908691, 0.66629105806350708, 0.76998633146286011, 0.88052642345428467,
      0.99106568098068237, 1.0560176372528076, 1.076094388961792, 1.0961711406707764, 1.1162480115890503,
      1.133713960647583],
     [4.0195465087890625, 4.250917911529541, 4.4820976257324219, 4.7135977745056152, 4.9451336860656738,
      5.1758041381835938, 5.4060592651367188, 5.6317062377929688, 5.8230266571044922, 6.0073471069335938,
      6.1916670799255371, 6.3398685455322266, 6.4525146484375, 6.5651617050170898, 6.6778092384338379,
      6.804783821105957]),
  -- PLATINUM, 323-357
  (
     [0.91863840818405151, 0.76061177253723145, 0.64079082012176514, 0.57850092649459839, 0.52822202444076538,
      0.50012445449829102, 0.48266655206680298, 0.46686702966690063, 0.46341925859451294, 0.46249008178710938,
      0.46156102418899536, 0.46567517518997192, 0.47475376725196838, 0.48383229970932007, 0.49291092157363892,
      0.50319749116897583],
     [3.1870579719543457, 3.4565804004669189, 3.7471020221710205, 4.0306148529052734, 4.3123531341552734,
      4.5813989639282227, 4.844355583190918, 5.1058297157287598, 5.3562531471252441, 5.6044235229492188,
      5.8525943756103516, 6.0953822135925293, 6.3328704833984375, 6.5703592300415039, 6.8078484535217285,
      7.0440154075622559]),
  -- TUNGSTEN, 358-392
  (
     [1.6186065673828125, 1.9181926250457764, 2.1916623115539551, 2.1743488311767578, 2.0957577228546143,
      1.8867784738540649, 1.6152557134628296, 1.3594210147857666, 1.2204372882843018, 1.1052803993225098,
      0.99012452363967896, 0.92889147996902466, 0.9207388162612915, 0.91258609294891357, 0.90443342924118042,
      0.90602701902389526],
     [5.0224885940551758, 5.1223468780517578, 5.1266627311706543, 4.9920387268066406, 4.8368349075317383,
      4.8983497619628906, 5.0638179779052734, 5.2457008361816406, 5.5498366355895996, 5.878901481628418,
      6.2079668045043945, 6.5348243713378906, 6.8595075607299805, 7.1841917037963867, 7.508875846862793,
      7.8302183151245117]),
  -- BERYLLIUM, 393-427
  (
     [2.9243030548095703, 3.0058403015136719, 3.0766749382019043, 3.1380355358123779, 3.1913092136383057,
      3.2372100353240967, 3.2768425941467285, 3.3107552528381348, 3.3395073413848877, 3.3637275695800781,
      3.3838531970977783, 3.4001960754394531, 3.4131138324737549, 3.422935962677002, 3.4298884868621826,
      3.4342522621154785],
     [3.1354477405548096, 3.1305034160614014, 3.1265838146209717, 3.1242134571075439, 3.1236977577209473,
      3.1252009868621826, 3.1289186477661133, 3.1348073482513428, 3.1429076194763184, 3.1532235145568848,
      3.1657586097717285, 3.1804537773132324, 3.197171688079834, 3.2160277366638184, 3.2368175983428955,
      3.2596068382263184]),
  -- BISMUTH, 428-462
  (
     [0.54842972755432129, 0.46689087152481079, 0.3973810076713562, 0.35270360112190247, 0.3133399486541748,
      0.28770154714584351, 0.26864668726921082, 0.25081023573875427, 0.24204912781715393, 0.23513856530189514,
      0.22822806239128113, 0.22495934367179871, 0.22527548670768738, 0.22559168934822083, 0.2259078323841095,
      0.22700031101703644],
     [2.6752371788024902, 2.8655273914337158, 3.0637199878692627, 3.2657768726348877, 3.4684853553771973,
      3.6677100658416748, 3.8652637004852295, 4.0620870590209961, 4.2534694671630859, 4.4437417984008789,
      4.6340150833129883, 4.8210639953613281, 5.004939079284668, 5.188814640045166, 5.3726902008056641,
      5.5557136535644531]),
  -- COBALT, 463-497
  (
     [1.0047714710235596, 0.92574089765548706, 0.84922331571578979, 0.78549015522003174, 0.72472906112670898,
      0.67861402034759521, 0.63952434062957764, 0.60255908966064453, 0.58141732215881348, 0.56350207328796387,
      0.54558700323104858, 0.53749668598175049, 0.5390775203704834, 0.54065835475921631, 0.54223918914794922,
      0.54746276140213013],
     [3.2935798168182373, 3.4702916145324707, 3.6574616432189941, 3.864081859588623, 4.0748147964477539,
      4.2946934700012207, 4.5189599990844727, 4.7437081336975098, 4.9720420837402344, 5.2011070251464844,
      5.4301724433898926, 5.6592483520507812, 5.888336181640625, 6.1174235343933105, 6.3465108871459961,
      6.5751113891601562]),
  -- CHROMIUM, 498-532
  (
     [2.0663609504699707, 2.1856887340545654, 2.3270499706268311, 2.5022149085998535, 2.6916000843048096,
      2.8564002513885498, 3.0171670913696289, 3.1663093566894531, 3.2054543495178223, 3.2083072662353516,
      3.1798930168151855, 3.1452381610870361, 3.1071681976318359, 3.0802221298217773, 3.0624442100524902,
      3.0540480613708496],
     [2.9110798835754395, 3.0316388607025146, 3.1350002288818359, 3.2297351360321045, 3.2851200103759766,
      3.3167998790740967, 3.3299698829650879, 3.3272500038146973, 3.3109087944030762, 3.3000907897949219,
      3.3002142906188965, 3.3123810291290283, 3.3314323425292969, 3.3522219657897949, 3.3744444847106934,
      3.3932480812072754]),
  -- GERMANIUM, 533-567
  (
     [4.173649787902832, 4.1046996116638184, 4.1240248680114746, 4.2116250991821289, 4.3626251220703125,
      4.5970001220703125, 4.9554991722106934, 5.2225003242492676, 5.4393754005432129, 5.7634997367858887,
      5.707125186920166, 5.5001249313354492, 5.3199996948242188, 5.1741247177124023, 5.0604996681213379,
      4.9660005569458008],
     [2.1280498504638672, 2.1184496879577637, 2.1777248382568359, 2.2538750171661377, 2.329124927520752,
      2.3937499523162842, 2.3559999465942383, 2.1146249771118164, 1.9512500762939453, 1.5452500581741333,
      1.0249999761581421, 0.74175006151199341, 0.58662503957748413, 0.49025002121925354, 0.42487502098083496,
      0.37637501955032349]),
  -- POTASSIUM, 568-602
  (
     [0.041032981127500534, 0.041920438408851624, 0.042602971196174622, 0.042799767106771469,
      0.044355321675539017, 0.046119324862957001, 0.047839879989624023, 0.049490798264741898,
      0.050947539508342743, 0.052392087876796722, 0.052597831934690475, 0.051606655120849609,
      0.050615478307008743, 0.049491442739963531, 0.048175424337387085, 0.046857848763465881],
     [0.83353769779205322, 0.95923358201980591, 1.0602842569351196, 1.1394393444061279, 1.219767689704895,
      1.2985948324203491, 1.3732564449310303, 1.4464669227600098, 1.5160603523254395, 1.5854282379150391,
      1.6554775238037109, 1.7261850833892822, 1.796892523765564, 1.8715722560882568, 1.9519920349121094,
      2.0324587821960449]),
  -- LITHIUM, 603-637
  (
     [0.26559668779373169, 0.25321334600448608, 0.24010109901428223, 0.22888362407684326, 0.21761003136634827,
      0.21064865589141846, 0.20486858487129211, 0.20067998766899109, 0.19781723618507385, 0.19423078000545502,
      0.19200000166893005, 0.19069696962833405, 0.1901620477437973, 0.19047223031520844, 0.19117063283920288,
      0.19257500767707825],
     [1.8253999948501587, 1.9151999950408936, 2.0293025970458984, 2.1475050449371338, 2.2847468852996826,
      2.3971295356750488, 2.51857590675354, 2.6283998489379883, 2.730086088180542, 2.8586535453796387,
      2.9800000190734863, 3.0945453643798828, 3.2037601470947266, 3.3144447803497314, 3.423875093460083,
      3.5250000953674316]),
  -- MAGNESIUM, 638-672
  (
     [0.18284940719604492, 0.20000481605529785, 0.21917228400707245, 0.23833978176116943, 0.25750726461410522,
      0.27667474746704102, 0.29584223031997681, 0.31500968337059021, 0.334177166223526, 0.35334464907646179,
      0.37251237034797668, 0.40198507905006409, 0.4415593147277832, 0.48113355040550232, 0.52070778608322144,
      0.56028205156326294],
     [3.627204418182373, 3.8281319141387939, 4.0294866561889648, 4.2308425903320312, 4.4321975708007812,
      4.6335525512695312, 4.8349080085754395, 5.0362634658813477, 5.2376184463500977, 5.4389743804931641,
      5.6403298377990723, 5.8484764099121094, 6.0632801055908203, 6.2780847549438477, 6.4928884506225586,
      6.7076921463012695]),
  -- MANGANESE, 673-707
  (
     [1.9935207366943359, 2.0549790859222412, 2.1105372905731201, 2.1827597618103027, 2.2357602119445801,
      2.2892000675201416, 2.3424925804138184, 2.3922710418701172, 2.4409091472625732, 2.4790146350860596,
      2.5020108222961426, 2.5254759788513184, 2.5492892265319824, 2.5746665000915527, 2.6013331413269043,
      2.6293127536773682],
     [2.8043193817138672, 2.894655704498291, 2.9760000705718994, 3.054379940032959, 3.1209597587585449,
      3.1904001235961914, 3.2621421813964844, 3.3319344520568848, 3.3936362266540527, 3.4551544189453125,
      3.5178821086883545, 3.5740475654602051, 3.6264355182647705, 3.6817779541015625, 3.739555835723877,
      3.7948448657989502]),
  -- MOLYBDENUM, 708-742
  (
     [0.42557340860366821, 0.43633595108985901, 0.4506717324256897, 0.47311919927597046, 0.49740725755691528,
      0.52954012155532837, 0.56543588638305664, 0.60287195444107056, 0.65178102254867554, 0.70302951335906982,
      0.75427830219268799, 0.8173595666885376, 0.89208853244781494, 0.96681755781173706, 1.0415465831756592,
      1.1235682964324951],
     [5.2792677879333496, 5.5915355682373047, 5.9038429260253906, 6.2164773941040039, 6.5292024612426758,
      6.8427553176879883, 7.1567068099975586, 7.4709572792053223, 7.7874312400817871, 8.1043586730957031,
      8.4212884902954102, 8.7406902313232422, 9.0625286102294922, 9.3843669891357422, 9.7062053680419922,
      10.028680801391602]),
  -- SODIUM, 743-777
  (
     [0.08063950389623642, 0.080892004072666168, 0.077058218419551849, 0.071089744567871094,
      0.065549574792385101, 0.060474365949630737, 0.055864691734313965, 0.051963996142148972,
      0.048807322978973389, 0.046514742076396942, 0.044933333992958069, 0.043654546141624451,
      0.042610038071870804, 0.042116668075323105, 0.041833750903606415, 0.04179999977350235],
     [1.5470333099365234, 1.6482665538787842, 1.749561071395874, 1.849191427230835, 1.9550426006317139,
      2.0634844303131104, 2.1768004894256592, 2.2871999740600586, 2.387458324432373, 2.4801280498504639,
      2.5733332633972168, 2.6684846878051758, 2.7656400203704834, 2.8650000095367432, 2.9642436504364014,
      3.0597500801086426]),
  -- NIOBIUM, 778-812
  (
     [1.5550000667572021, 1.7599999904632568, 1.9549999237060547, 2.0099999904632568, 2.0750000476837158,
      2.1649999618530273, 2.2150001525878906, 2.2599999904632568, 2.2899999618530273, 2.2799999713897705,
      2.2750000953674316, 2.2750000953674316, 2.2699999809265137, 2.25, 2.2249999046325684, 2.195000171661377],
     [2.9700000286102295, 2.9650001525878906, 2.9900000095367432, 3.0199999809265137, 3.054999828338623,
      3.0749998092651367, 3.1150000095367432, 3.1600000858306885, 3.2000000476837158, 3.2400002479553223, 3.25,
      3.2750000953674316, 3.3299999237060547, 3.3699996471405029, 3.3949999809265137, 3.4249999523162842]),
  -- NICKEL, 813-847
  (
     [1.3444344997406006, 1.2322421073913574, 1.1401201486587524, 1.0946162939071655, 1.0592464208602905,
      1.0547223091125488, 1.0649938583374023, 1.0790210962295532, 1.1210229396820068, 1.1687290668487549,
      1.2164356708526611, 1.2844858169555664, 1.3725615739822388, 1.4606375694274902, 1.5487134456634521,
      1.6472705602645874],
     [3.2570171356201172, 3.4973893165588379, 3.7570717334747314, 4.0355148315429688, 4.3177423477172852,
      4.6029634475708008, 4.8896207809448242, 5.1764578819274902, 5.4646296501159668, 5.7530736923217773,
      6.0415177345275879, 6.3329391479492188, 6.627293586730957, 6.9216475486755371, 7.2160019874572754,
      7.5120620727539062]),
  -- PALLADIUM, 848-882
  (
     [1.0338617563247681, 0.91836720705032349, 0.8037344217300415, 0.70797288417816162, 0.61660754680633545,
      0.54715412855148315, 0.48821109533309937, 0.43183746933937073, 0.39460170269012451, 0.36126834154129028,
      0.32793515920639038, 0.30285289883613586, 0.28589263558387756, 0.26893240213394165, 0.25197213888168335,
      0.23662814497947693],
     [2.9739744663238525, 3.1187980175018311, 3.2821948528289795, 3.4789016246795654, 3.6825187206268311,
      3.8975646495819092, 4.1180934906005859, 4.3386764526367188, 4.5596728324890137, 4.7807526588439941,
      5.0018329620361328, 5.220005989074707, 5.4353175163269043, 5.6506290435791016, 5.865941047668457,
      6.0801286697387695]),
  -- RHODIUM, 883-917
  (
     [1.4980031251907349, 1.6410449743270874, 1.7506217956542969, 1.8302091360092163, 1.8704267740249634,
      1.8938577175140381, 1.9238359928131104, 1.9666941165924072, 2.0117514133453369, 2.050422191619873,
      2.0965085029602051, 2.144709587097168, 2.1940717697143555, 2.2480664253234863, 2.3039436340332031,
      2.3628149032592773],
     [4.2656068801879883, 4.369086742401123, 4.4522600173950195, 4.5270605087280273, 4.6193747520446777,
      4.7387909889221191, 4.8752851486206055, 5.0156326293945312, 5.1554226875305176, 5.2972321510314941,
      5.4395260810852051, 5.5872178077697754, 5.7394890785217285, 5.8849725723266602, 6.0300989151000977,
      6.1822719573974609]),
  -- TANTALUM, 918-952
  (
     [1.3093551397323608, 1.2771892547607422, 1.2457765340805054, 1.2173707485198975, 1.1896722316741943,
      1.1656813621520996, 1.1434687376022339, 1.1218591928482056, 1.1047412157058716, 1.0885391235351562,
      1.0723371505737305, 1.0589964389801025, 1.0484724044799805, 1.0379486083984375, 1.0274245738983154,
      1.0177078247070312],
     [3.6245696544647217, 3.7929885387420654, 3.9649055004119873, 4.1438865661621094, 4.3243951797485352,
      4.5093345642089844, 4.6963987350463867, 4.8838815689086914, 5.0744771957397461, 5.2657079696655273,
      5.456939697265625, 5.6491641998291016, 5.8423662185668945, 6.0355691909790039, 6.2287712097167969,
      6.4220476150512695]),
  -- TITANIUM, 953-987
  (
     [0.81332862377166748, 0.65813624858856201, 0.52915894985198975, 0.45276078581809998, 0.38746863603591919,
      0.34658122062683105, 0.31740009784698486, 0.29011243581771851, 0.27692875266075134, 0.26662096381187439,
      0.2563132643699646, 0.2518031895160675, 0.25300011038780212, 0.25419706106185913, 0.25539398193359375,
      0.25824931263923645],
     [2.5880985260009766, 2.8023321628570557, 3.0375339984893799, 3.2785911560058594, 3.520531177520752,
      3.7538387775421143, 3.9830050468444824, 4.210874080657959, 4.4290761947631836, 4.6453075408935547,
      4.8615384101867676, 5.0729475021362305, 5.279609203338623, 5.4862713813781738, 5.6929340362548828,
      5.8984231948852539]),
  -- VANADIUM, 988-1022
  (
     [1.0383094549179077, 0.97697687149047852, 0.91168135404586792, 0.84501153230667114, 0.77829909324645996,
      0.71889787912368774, 0.66300362348556519, 0.60874068737030029, 0.56662887334823608, 0.52699470520019531,
      0.48736065626144409, 0.45543137192726135, 0.43108624219894409, 0.40674114227294922, 0.38239610195159912,
      0.35996785759925842],
     [3.3230335712432861, 3.4604706764221191, 3.6065070629119873, 3.7740051746368408, 3.9461894035339355,
      4.1332621574401855, 4.3274765014648438, 4.5229005813598633, 4.7273349761962891, 4.9336071014404297,
      5.1398782730102539, 5.3478608131408691, 5.5575265884399414, 5.7671918869018555, 5.9768581390380859,
      6.186272144317627]),
  -- ZINC, 1023-1057
  (
     [0.59797143936157227, 0.63694232702255249, 0.67834270000457764, 0.72458899021148682, 0.77191126346588135,
      0.82316255569458008, 0.87629842758178711, 0.93002855777740479, 0.98818510770797729, 1.0472443103790283,
      1.1063034534454346, 1.1685023307800293, 1.2337913513183594, 1.2990806102752686, 1.3643696308135986,
      1.4307467937469482],
     [3.6020922660827637, 3.8081672191619873, 4.0114068984985352, 4.208918571472168, 4.405156135559082,
      4.5966658592224121, 4.7859077453613281, 4.9744172096252441, 5.1574697494506836, 5.3394088745117188,
      5.5213484764099121, 5.6991763114929199, 5.8729572296142578, 6.0467376708984375, 6.2205181121826172,
      6.3926553726196289]),
  -- ZIRCONIUM, 1058-1092
  (
     [1.7850000858306885, 1.8854999542236328, 1.9844999313354492, 2.0840001106262207, 2.1894998550415039,
      2.3004999160766602, 2.4130001068115234, 2.5314998626708984, 2.6619999408721924, 2.7940001487731934,
      2.9124999046325684, 3.0230000019073486, 3.1284999847412109, 3.2265000343322754, 3.3189997673034668,
      3.4060001373291016],
     [2.6434998512268066, 2.7624998092651367, 2.8715000152587891, 2.9795000553131104, 3.0855000019073486,
      3.1830000877380371, 3.2734999656677246, 3.3600001335144043, 3.433499813079834, 3.4845001697540283,
      3.5199999809265137, 3.5514998435974121, 3.5759997367858887, 3.5945000648498535, 3.6095001697540283,
      3.6194999217987061])]

/-- Value of a `metal_t`, metals.hpp:40-73 (`METAL_SILVER` is 0, every other one more than the one before). -/
def number : Metal → Nat
  | .silver => 0 | .aluminium => 1 | .gold => 2 | .copper => 3 | .iron => 4 | .mercury => 5 | .lead => 6
  | .platinum => 7 | .tungsten => 8 | .beryllium => 9 | .bismuth => 10 | .cobalt => 11 | .chromium => 12
  | .germanium => 13 | .potassium => 14 | .lithium => 15 | .magnesium => 16 | .manganese => 17 | .molybdenum => 18
  | .sodium => 19 | .niobium => 20 | .nickel => 21 | .palladium => 22 | .rhodium => 23 | .tantalum => 24
  | .titanium => 25 | .vanadium => 26 | .zinc => 27 | .zirconium => 28

/-- `Spectrum::Spectrum(initializer_list)` with `SPECTRAL`, spectrum.cpp:425-432: another number of values throws. -/
noncomputable def construct (l : List ℚ) : Option Color.Samples :=
  if l.length = 16 then some fun i => ((l.getD i.val 0 : ℚ) : ℝ) else none

/-- `METALS[mat->elem].n` and `.k`, config_driver.cpp:469-470; `none` is an exception (thrown before `main`) or an
index out of the table. -/
noncomputable def constants (m : Metal) : Option (Color.Samples × Color.Samples) := do
  let e ← table[number m]?
  let n ← construct e.1
  let k ← construct e.2
  some (n, k)

/-- `Conductor::eval` with `SPECTRAL`: sample by sample. -/
noncomputable def reflectance (n k : Color.Samples) (c : ℝ) (i : Fin 16) : Option ℝ := Specular.conductor (n i) (k i) c

/-- `Conductor::eval` without `SPECTRAL`: the constants are reduced to three numbers by the constructor of
`Spectrum`, and the three results are X, Y and Z. -/
noncomputable def reflectance3 (n k : Color.Samples) (c : ℝ) : Option (Geom.V3 ℝ) := do
  let x ← Specular.conductor (Color.reduce n).x (Color.reduce k).x c
  let y ← Specular.conductor (Color.reduce n).y (Color.reduce k).y c
  let z ← Specular.conductor (Color.reduce n).z (Color.reduce k).z c
  some ⟨x, y, z⟩

end Spectre.Metals
