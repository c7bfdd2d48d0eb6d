import Verif.Crypto.Limbs
/-!
# Poseidon

Model of `crates/crypto/src/hash/poseidon`.
-/
namespace Verif.Crypto

/-- `POSEIDON_COMP_CONSTS` (poseidon/consts.rs:4-112). -/
def poseidonConsts : List Limbs :=
  [⟨9243643933561577962, 18087611126302680282, 7098098609281275249, 289757450055368158⟩,
   ⟨7853535095351734343, 10850711010770646915, 12570458558381957509, 325478872510666341⟩,
   ⟨14487852855283887204, 5186719240138179095, 8414109922749085282, 400708606768273790⟩,
   ⟨3280395077118373336, 17795901222489795490, 2641423859640672268, 77297546474262716⟩,
   ⟨8106789448329946608, 5622576456418619364, 917099606739132255, 531983052745549445⟩,
   ⟨595196979161159364, 13104152156623721627, 11543764507410437138, 296030771607252997⟩,
   ⟨7816701695378368721, 3357934764826603292, 15403608342128707689, 450788015873872442⟩,
   ⟨636799349004279181, 6138586124645004146, 9427309254075631876, 241320328808721095⟩,
   ⟨17291774529514094747, 5039440405858006990, 9298428421172181112, 506951390701988816⟩,
   ⟨11806696651894481589, 1092083221520939347, 14414850501582138681, 221101813663738384⟩,
   ⟨13829429898061010046, 2611422711440939737, 15408727842397286736, 507284792967663799⟩,
   ⟨13083162048600272883, 8232965923506882345, 10342036084285918913, 4246917344608281⟩,
   ⟨14120941658239655251, 2642188447246846335, 6420128711794491484, 387738584202674747⟩,
   ⟨4557515129132896247, 12925333772434149495, 8021291067466006291, 359812401200365725⟩,
   ⟨1890170602709420465, 10101417316275735447, 14228475625622468342, 213055788422889429⟩,
   ⟨17718807227125703766, 3165015027285286767, 17001522267729424593, 193938768174500364⟩,
   ⟨11967566541251349, 8042878571206807946, 12035959970295095627, 392852226019534694⟩,
   ⟨14702858513363496537, 1891459712461864795, 11108523323717023107, 156261542945214132⟩,
   ⟨1945929902309569324, 12703913861703223537, 18026399617460967320, 552659386849285670⟩,
   ⟨15676691957102339301, 7305794071419508305, 15605369973884503830, 279124040567655554⟩,
   ⟨6878414542634060631, 6806916028752188971, 6743346892345011852, 209421398668690776⟩,
   ⟨14451878242532315248, 280667558436689575, 7481193996043836595, 102898977772584225⟩,
   ⟨10099174071678455934, 10050300413654558496, 15460796480957384300, 326260635675691414⟩,
   ⟨12189485177509053284, 18189503908521730582, 2742965211333049654, 246759231813836949⟩,
   ⟨17131884891365868725, 4126475231607707865, 4142744258917121527, 517354668301661021⟩,
   ⟨9321360184240157338, 8642907823639066926, 4815888288973513717, 387266619660887473⟩,
   ⟨9877712865958333042, 172887203519774060, 14912001171503456000, 379922462175671594⟩,
   ⟨5253862319821606646, 3112421893979476452, 12476994431456066104, 503867426189678810⟩,
   ⟨6459833828500045091, 8544893956421165385, 4198699220078046017, 361247795501724706⟩,
   ⟨15367072576308287971, 11136955306523718350, 1150777808545574589, 569094971639990703⟩,
   ⟨938972551523044539, 14766818754575560648, 14214531273441880096, 519370339044767210⟩,
   ⟨8541051058482254568, 15415072429245325504, 14957220415534017748, 76536527755312734⟩,
   ⟨2465712523883598144, 6511341599113654315, 6309081263114838229, 393450888402641516⟩,
   ⟨940821186092154852, 8192839842351846874, 5396406749139750234, 288112524550260818⟩,
   ⟨18013945796863515455, 14414340112335121757, 8020715533944075007, 378547930620493071⟩,
   ⟨10882040312752948163, 13534318422278561025, 16239338703176780807, 315921785019971079⟩,
   ⟨11804152077864610443, 10711845104699761001, 2579945555704418307, 407428959149964045⟩,
   ⟨3599124979175311464, 12397382694363857548, 2441162789755772647, 519829512759629210⟩,
   ⟨1122008851702936351, 2255313605192201584, 9526529507379911735, 297026039684882166⟩,
   ⟨1993625032903604531, 596810388162793045, 15598201710380655007, 131529263108506346⟩,
   ⟨4674850965951748614, 4226133210265092969, 16131311957670865406, 224060573845038011⟩,
   ⟨11214981260617649902, 2473985365883836987, 5936657039588618128, 75239021508281120⟩,
   ⟨1656325451144825481, 9292758618068460829, 10708624397900073633, 194216947938400317⟩,
   ⟨8903410050073285790, 8661236053987118957, 1615364812064241551, 67542072505613059⟩,
   ⟨15404542557975125459, 2998788108140034653, 2552297003970802502, 469030315210549517⟩,
   ⟨12823358311737123095, 7648424977752018148, 6761349120637124061, 453636870534881918⟩,
   ⟨9487732293618798109, 10740489098835571894, 11738903622058165831, 161717009046994634⟩,
   ⟨13651502097878895227, 10047101549636218127, 10044469647704241764, 277982644699321060⟩,
   ⟨8555164891384310121, 8824267949549756926, 7305199522290707083, 263260756366809017⟩,
   ⟨8140624856704023682, 8045915014876264352, 17217076042215213576, 72504083815642834⟩,
   ⟨2393283877389675021, 184042354645416614, 5319475030094698416, 521277606880990981⟩,
   ⟨434646374717545122, 16968292764294941446, 397903500864519791, 189962858545866132⟩,
   ⟨15192322066947113426, 7230072155523803250, 1912611278135465035, 484438043712101051⟩,
   ⟨3404050675041230416, 5349474969561382272, 10312121908398277288, 131659008494808833⟩,
   ⟨16161573332686472539, 11482954176039056988, 10321079257176384834, 285431294163195780⟩,
   ⟨7769460563456887047, 15933903404722266197, 4417375624575928495, 509185859951343125⟩,
   ⟨4757536062552078975, 14345591597495868207, 5136403899854077412, 155548508933381698⟩,
   ⟨16954136253536679036, 15495192077804287724, 3602538967473509698, 424756635805120473⟩,
   ⟨782587731399981975, 8752948468066486506, 11249513498993831494, 297791197798108890⟩,
   ⟨8920685932186110294, 607857242333979734, 9067276084563478270, 257755501610648687⟩,
   ⟨12797826492922709079, 598864940726990753, 10808632893013728360, 255507877414539372⟩,
   ⟨18357585898410668675, 14427109677195052515, 11616133167538022764, 337499443474645791⟩,
   ⟨11006876850199954451, 4471887087529055003, 13709407269306624594, 461544350634460860⟩,
   ⟨3935449925401609487, 7247938434158659126, 16055252784997531913, 241572537953357206⟩,
   ⟨12185916472608269828, 8599903496731799844, 7473372200107268523, 20826784995699326⟩,
   ⟨9114145677234606895, 11335924134290767337, 12339440635155145939, 325284558926946894⟩,
   ⟨7913511813685739207, 13510010034121256720, 5786681712809070321, 524297675686992468⟩,
   ⟨11489572640693348549, 653791830907185044, 1343259707956093156, 91862724283776664⟩,
   ⟨8475224572437702585, 6117048525531009669, 2612824879774856987, 152655841869983584⟩,
   ⟨10275284836695919781, 1229936912426117714, 852953717024661566, 494626294612738458⟩,
   ⟨458652097155681902, 14888651917691804798, 16255075206832288784, 24654605265517243⟩,
   ⟨12078376201244291123, 15650814510286239758, 7824274777759107853, 548147943423761875⟩,
   ⟨7150607360351293312, 15869512646666935948, 17547962929740675348, 544265221469581427⟩,
   ⟨8825399362075630882, 8320101570235006675, 831216380162620582, 110482907032568200⟩,
   ⟨16250629230069546482, 2730194971623754710, 2257455797750592448, 492309260778657687⟩,
   ⟨14147969271427023624, 828879174920615316, 774481952233097841, 358764916624727771⟩,
   ⟨2327560102298050020, 16326474056896465620, 11569722182073805281, 505092152210714943⟩,
   ⟨9785912164301152354, 8106490610561126785, 1630249814069958098, 58834859029597485⟩,
   ⟨3289890810144882514, 3215734868963276321, 8055317084564590682, 119086600262724981⟩,
   ⟨5483225686717068229, 16371685975512595166, 15450955014197186841, 247943736268488503⟩,
   ⟨4381919769144899813, 13933618086851303637, 5230009595729784912, 20792489568442719⟩,
   ⟨8789178883266410059, 16721801817937206035, 13400733992682978294, 442589726189451790⟩,
   ⟨14046586735054130921, 292037712493469239, 5356712645210626551, 293939309306751922⟩,
   ⟨380205073025197349, 5755966045834097308, 5866406040614980707, 348659944710609305⟩,
   ⟨9134565645309956025, 5970118022284662551, 7792904134063363468, 113718338186485349⟩,
   ⟨2923116954730895285, 4758998626841090083, 11310098556304705439, 48545222501354940⟩,
   ⟨10356409984278808132, 8626434746901408014, 14741910479101271233, 288126037191662696⟩,
   ⟨15089483185994803607, 15995340104776500525, 8804335419305831150, 396859084962881839⟩,
   ⟨1806552960857676317, 5044268144265983057, 10937421026512331976, 388825756002312816⟩,
   ⟨195394918711621979, 11495023801469827766, 10387650783476140513, 36031442409401774⟩,
   ⟨6252690410849898787, 15336030451772296178, 9931420975657904643, 342401574327501171⟩,
   ⟨8845585704258239691, 6335878880627979647, 11428826230512157512, 125599780553714479⟩,
   ⟨15678553522198702946, 5956556265401411549, 15531514790645111620, 321829728761679778⟩,
   ⟨12747317311074323278, 18276738862377911125, 16869705933132331722, 429960475805585734⟩,
   ⟨8818520944555213172, 12659942709060110110, 3152386375917271891, 538072118411786464⟩,
   ⟨7051814885573177194, 6963721086450009179, 17624329337577352587, 478549527730244073⟩,
   ⟨12782217873770289538, 15295458184819533181, 4074200589034403638, 173095944718984339⟩,
   ⟨1759489451407771803, 2198678818123145500, 8614653954149136745, 522963184775328415⟩,
   ⟨15754679985287562033, 17144367048005459911, 8637536145542499282, 178770311623751184⟩,
   ⟨298970159691700591, 12014891315505021636, 5642896886612387367, 320523276021081874⟩,
   ⟨2161827243834369197, 6529000939326479156, 3360240309062894342, 423278556197684001⟩,
   ⟨17922407737483631270, 10846304006776507478, 4814020835957029095, 558105788237772190⟩,
   ⟨14309821559636775821, 5191281667707819629, 7991629750293746597, 55044774064780458⟩,
   ⟨4475858853850722769, 4126326734531744171, 14548036495158561611, 569399000276545969⟩,
   ⟨17137171742635080032, 13734979251366108230, 733658667004231380, 393850665517739074⟩,
   ⟨18207273213375707676, 9125832381882861274, 13182372482997690796, 374441752858986998⟩,
   ⟨11725146126629035967, 2224508228469132237, 1606247714594998930, 162358740541808928⟩]

/-- `PoseidonState` (poseidon/permutation.rs:5). -/
structure PState where
  s0 : Limbs
  s1 : Limbs
  s2 : Limbs
  deriving DecidableEq, Repr

/-! `+`, `-`, `*` of `MontFelt` (montfelt/additive.rs, montfelt/multiplicative.rs). -/
local infixl:65 " +ₘ " => add fieldMod
local infixl:65 " -ₘ " => sub fieldMod
local infixl:70 " *ₘ " => mul fieldMod

/-- `mix` (poseidon/permutation.rs:16-21). -/
def mix (s : PState) : PState :=
  let t := s.s0 +ₘ s.s1 +ₘ s.s2
  ⟨t +ₘ double fieldMod s.s0, t -ₘ double fieldMod s.s1, t -ₘ (double fieldMod s.s2 +ₘ s.s2)⟩

/-- `state.square() * state` (poseidon/permutation.rs:34-36 and 46). -/
def cube (x : Limbs) : Limbs := square fieldMod x *ₘ x

/-- An entry of the table of constants; an index out of range would panic. -/
def pconst (i : Nat) : Limbs := poseidonConsts.getD i zero

/-- `full_round` (poseidon/permutation.rs:30-38). -/
def fullRound (s : PState) (idx : Nat) : PState :=
  mix ⟨cube (s.s0 +ₘ pconst idx), cube (s.s1 +ₘ pconst (idx + 1)), cube (s.s2 +ₘ pconst (idx + 2))⟩

/-- `partial_round` (poseidon/permutation.rs:44-48). -/
def partialRound (s : PState) (idx : Nat) : PState := mix ⟨s.s0, s.s1, cube (s.s2 +ₘ pconst idx)⟩

/-- `permute` (poseidon/permutation.rs:54-74) with `FULL_ROUNDS = 8` and `PARTIAL_ROUNDS = 83` (lines 7-8). The counter `idx` is
written as a function of the round: it grows by three in the first four rounds, by one in the next 83 and by three in the last
four. -/
def permute (s : PState) : PState :=
  let s := (List.range 4).foldl (fun s k => fullRound s (3 * k)) s
  let s := (List.range 83).foldl (fun s k => partialRound s (12 + k)) s
  (List.range 4).foldl (fun s k => fullRound s (95 + 3 * k)) s

/-- `MontFelt::ONE` and `TWO` (montfelt/constants.rs). -/
def montOne : Limbs := fieldMod.R
def montTwo : Limbs := add fieldMod montOne montOne

/-- `poseidon_hash` (poseidon/hash.rs:7-12). -/
def poseidonHash (x y : Limbs) : Limbs := (permute ⟨x, y, montTwo⟩).s0

/-- `chunks_exact(2)` (poseidon/hash.rs:19). -/
def chunks2 {α : Type} : List α → List (α × α)
  | a :: b :: l => (a, b) :: chunks2 l
  | _ => []

/-- `remainder` of these chunks (poseidon/hash.rs:26). -/
def remainder2 {α : Type} : List α → Option α
  | _ :: _ :: l => remainder2 l
  | [a] => some a
  | [] => none

/-- The body of the loop of `poseidon_hash_many` (poseidon/hash.rs:21-25). -/
def absorbPair (s : PState) (msg : Limbs × Limbs) : PState := permute ⟨s.s0 +ₘ msg.1, s.s1 +ₘ msg.2, s.s2⟩

/-- The last block of `poseidon_hash_many` (poseidon/hash.rs:26-33): one is added behind the remainder. -/
def finishMany (s : PState) : Option Limbs → Limbs
  | some a => (permute ⟨s.s0 +ₘ a, s.s1 +ₘ montOne, s.s2⟩).s0
  | none => (permute ⟨s.s0 +ₘ montOne, s.s1, s.s2⟩).s0

/-- `poseidon_hash_many` (poseidon/hash.rs:17-34). -/
def poseidonHashMany (msgs : List Limbs) : Limbs :=
  finishMany ((chunks2 msgs).foldl absorbPair ⟨zero, zero, zero⟩) (remainder2 msgs)

/-- `PoseidonHasher` (poseidon/hash.rs:40-43). -/
structure PHasher where
  state : PState
  buffer : Option Limbs

/-- `PoseidonHasher::new` (poseidon/hash.rs:47-52). -/
def PHasher.new : PHasher := ⟨⟨zero, zero, zero⟩, none⟩

/-- `PoseidonHasher::write`, `chain` (poseidon/hash.rs:55-72). -/
def PHasher.write (h : PHasher) (msg : Limbs) : PHasher :=
  match h.buffer with
  | some previous => ⟨permute ⟨h.state.s0 +ₘ previous, h.state.s1 +ₘ msg, h.state.s2⟩, none⟩
  | none => ⟨h.state, some msg⟩

/-- `PoseidonHasher::finish` (poseidon/hash.rs:75-89). -/
def PHasher.finish (h : PHasher) : Limbs :=
  match h.buffer with
  | some last => (permute ⟨h.state.s0 +ₘ last, h.state.s1 +ₘ montOne, h.state.s2⟩).s0
  | none => (permute ⟨h.state.s0 +ₘ montOne, h.state.s1, h.state.s2⟩).s0

end Verif.Crypto
