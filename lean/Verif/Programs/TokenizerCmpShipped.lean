import Verif.Programs.TokenizerCmpReal

/-!
# strtk_tokenizer_cmp.cpp: the sum of doubles for the program's own list (568-755)
-/

namespace Strtk.Programs.Cmp
open Outcome Strtk.Real Strtk.Grid
open Number (isDigit decVal)

set_option exponentiation.threshold 2000

/-! ## Model -/

/-- Texts 1 to 134 of the 1072 texts of `v` (568-752), each as its length and its bytes in hexadecimal; the first is `+004`. -/
def s2dTexts0 : List (Nat × Nat) := [
  (4, 0x2b303034), (4, 0x2b303035), (4, 0x2b303036), (4, 0x2b303037), (4, 0x2b393239), (3, 0x373636), (3, 0x313532), (3, 0x343832),
  (15, 0x373337393937332e36363234373030), (16, 0x2d323138373439362e39323930393931), (14, 0x3338343238312e33373230303032), (16, 0x2d363630333439392e34393138323537),
  (1, 0x30), (1, 0x31), (1, 0x32), (1, 0x33), (3, 0x383739), (4, 0x2b313330), (3, 0x323932), (3, 0x373035), (5, 0x3030303030), (5, 0x3030303031), (5, 0x3030303032),
  (5, 0x3030303033), (16, 0x2d383031373336372e31343831393935), (14, 0x3633333639332e32373839383635), (15, 0x2d3733343839382e36333636323939),
  (15, 0x2b3239353439342e32333335313735), (4, 0x2b312e30), (4, 0x2b322e30), (4, 0x2b332e30), (4, 0x2b342e30), (4, 0x2b352e30), (4, 0x2b362e30), (4, 0x2b372e30),
  (4, 0x2b382e30), (4, 0x2b392e30), (16, 0x2b363932343532302e36343236373335), (16, 0x2d383231393632392e38333338353439), (15, 0x373230313138332e38313234393336),
  (16, 0x2d343530353235352e36343039323232), (3, 0x373038), (4, 0x2d343637), (4, 0x2d373934), (3, 0x363130), (16, 0x2d343132353937372e34323433333934),
  (16, 0x2b373737303838302e32303434333231), (15, 0x2d3933363330392e36383531383236), (15, 0x373134303635372e36373239323631), (15, 0x333337343939342e32353330393434),
  (16, 0x2d353933333036322e37323537383030), (16, 0x2b383636343230352e39343736323538), (16, 0x2d373134343831302e35333337323436), (4, 0x2d333137), (3, 0x313039),
  (4, 0x2d383838), (3, 0x333032), (3, 0x363734), (4, 0x2b343637), (4, 0x2b373036), (3, 0x383839), (3, 0x2d2e30), (3, 0x2d2e31), (3, 0x2d2e32), (3, 0x2d2e33),
  (3, 0x2d2e34), (3, 0x2d2e35), (3, 0x2d2e36), (3, 0x2d2e37), (3, 0x2d2e38), (3, 0x2d2e39), (3, 0x2b2e30), (3, 0x2b2e31), (3, 0x2b2e32), (3, 0x2b2e33), (3, 0x2b2e34),
  (3, 0x2b2e35), (3, 0x2b2e36), (3, 0x2b2e37), (3, 0x2b2e38), (3, 0x2b2e39), (4, 0x2d383430), (3, 0x323637), (3, 0x323031), (3, 0x353333), (5, 0x2d30303030),
  (5, 0x2d30303031), (5, 0x2d30303032), (5, 0x2d30303033), (17, 0x30333337343939342e3235333039343430), (18, 0x2d30353933333036322e3732353738303030),
  (18, 0x2b30383636343230352e3934373632353830), (18, 0x2d30373134343831302e3533333732343630), (3, 0x333633), (4, 0x2d363237), (3, 0x313239), (4, 0x2b363536),
  (17, 0x2b303339313035392e3730303035333630), (17, 0x30383031383732362e3437393039363030), (18, 0x2d30373736323533322e3532373338353830),
  (17, 0x2b303139313637372e3538353337353930), (3, 0x312e30), (3, 0x322e30), (3, 0x332e30), (3, 0x342e30), (3, 0x352e30), (3, 0x362e30), (3, 0x372e30), (3, 0x382e30),
  (3, 0x392e30), (18, 0x2d30323631303139332e3233333338323930), (18, 0x2d30353533363432362e3637343139303530), (17, 0x30393836383731332e3734343435303430),
  (18, 0x2d30343138373436312e3834393930303830), (3, 0x383730), (3, 0x313437), (3, 0x383938), (4, 0x2d353130), (2, 0x2d34), (2, 0x2d35), (2, 0x2d36), (2, 0x2d37),
  (16, 0x30383632333432382e38353239313530), (17, 0x30323933323031382e3439383330313430), (18, 0x2d30393831363433362e3732393730373530),
  (17, 0x30323138333138382e3538363539373230), (4, 0x2d312e30), (4, 0x2d322e30), (4, 0x2d332e30), (4, 0x2d342e30), (4, 0x2d352e30), (4, 0x2d362e30), (4, 0x2d372e30),
  (4, 0x2d382e30)]

/-- Texts 135 to 268 of the 1072 texts of `v` (568-752), each as its length and its bytes in hexadecimal; the first is `-9.0`. -/
def s2dTexts1 : List (Nat × Nat) := [
  (4, 0x2d392e30), (18, 0x2d30343636333738372e3237343032303030), (17, 0x2d30383731393836392e39383232343730), (18, 0x2b30383030313435352e3638303536383430),
  (17, 0x2d30313830303833372e31363930373730), (4, 0x2b303030), (4, 0x2b303031), (4, 0x2b303032), (4, 0x2b303033), (18, 0x2b30363938373331342e3131343232323230),
  (17, 0x2b303131323133362e3837303733363230), (18, 0x2d30323132303534332e3936363130373630), (18, 0x2b30333930333633342e3533363431343930), (4, 0x2b343733), (2, 0x3734),
  (3, 0x333734), (3, 0x2d3634), (18, 0x2d30353434363030322e3737313533323730), (18, 0x2d30343535323738342e3630333634303230), (17, 0x30363137383331382e3630323435323630),
  (17, 0x2d303334303439312e3533393934333430), (16, 0x30373535373632382e34333835323930), (17, 0x30333839393330312e3730363839353730),
  (17, 0x2d303239323634332e3438313139333430), (17, 0x30383633393031352e3435323931343730), (3, 0x373034), (4, 0x2d353638), (4, 0x2b333031), (3, 0x393531),
  (18, 0x2d30313536363637352e3130393830343430), (18, 0x2d30333639353536372e3636333636323930), (18, 0x2b30353838383335372e3838393132323830),
  (17, 0x2d303535303933302e3436373133373230), (6, 0x2e3030652b30), (6, 0x2e3031652b31), (6, 0x2e3032652b32), (6, 0x2e3033652b33), (6, 0x2e3034652b34),
  (6, 0x2e3035652b35), (6, 0x2e3036652b36), (6, 0x2e3037652b37), (6, 0x2e3038652b38), (6, 0x2e3039652b39), (6, 0x2e30652b3030), (6, 0x2e31652b3031),
  (6, 0x2e32652b3032), (6, 0x2e33652b3033), (6, 0x2e34652b3034), (6, 0x2e35652b3035), (6, 0x2e36652b3036), (6, 0x2e37652b3037), (6, 0x2e38652b3038),
  (6, 0x2e39652b3039), (14, 0x302e363638333634393337393135), (15, 0x2d302e343931343031313431323431), (15, 0x2d302e333333313239353739383632),
  (15, 0x2d302e333635383037383939383030), (2, 0x2b30), (2, 0x2b31), (2, 0x2b32), (2, 0x2b33), (5, 0x3030303034), (5, 0x3030303035), (5, 0x3030303036),
  (5, 0x3030303037), (4, 0x2d343633), (3, 0x373136), (3, 0x393136), (3, 0x363635), (15, 0x2d302e373432393938393238353233), (15, 0x2b302e373935373430363337393237),
  (15, 0x2b302e373338383930313932323032), (14, 0x302e383338343230313839323434), (4, 0x2b323930), (3, 0x383233), (4, 0x2b313131), (3, 0x373135),
  (14, 0x302e313336393535323930353730), (15, 0x2d302e353238313834313732353136), (15, 0x2d302e393232343835393739313132), (15, 0x2d302e383332313730343133323638),
  (15, 0x2d302e393435383238353537303638), (14, 0x302e383739323537363434343230), (14, 0x302e323434343530383132333639), (15, 0x2b302e333035303335363533343930),
  (4, 0x2b353335), (3, 0x363931), (4, 0x2b333236), (4, 0x2d343039), (15, 0x2b302e313235363334313035363031), (15, 0x2d302e313934333939373231333835),
  (15, 0x2d302e383230323433333138323634), (15, 0x2d302e383830323330333936323630), (15, 0x2d302e333630353530343539343234), (15, 0x2b302e353635383637323937393239),
  (15, 0x2b302e343433393836373436313933), (14, 0x302e333237373637373136383035), (3, 0x313732), (4, 0x2b323832), (4, 0x2d373935), (3, 0x313838),
  (14, 0x302e353836363330393038363930), (15, 0x2d302e363035323934353838303038), (15, 0x2d302e353137313730343938363039), (15, 0x2d302e383833343134373331333831),
  (9, 0x3132332e3435366533), (9, 0x3132332e3435364533), (10, 0x3132332e343536652b33), (10, 0x3132332e343536452b33), (10, 0x3132332e343536653033),
  (10, 0x3132332e343536453033), (11, 0x3132332e343536652b3033), (11, 0x3132332e343536452b3033), (12, 0x3132332e3435366530303033), (12, 0x3132332e3435364530303033),
  (13, 0x3132332e343536652b30303033), (13, 0x3132332e343536452b30303033), (5, 0x2e30452b30), (5, 0x2e31452b31), (5, 0x2e32452b32), (5, 0x2e33452b33), (5, 0x2e34452b34),
  (5, 0x2e35452b35), (5, 0x2e36452b36), (5, 0x2e37452b37), (5, 0x2e38452b38), (5, 0x2e39452b39), (6, 0x2b2e30652b30), (6, 0x2b2e31652b31), (6, 0x2b2e32652b32),
  (6, 0x2b2e33652b33), (6, 0x2b2e34652b34), (6, 0x2b2e35652b35), (6, 0x2b2e36652b36)]

/-- Texts 269 to 402 of the 1072 texts of `v` (568-752), each as its length and its bytes in hexadecimal; the first is `+.7e+7`. -/
def s2dTexts2 : List (Nat × Nat) := [
  (6, 0x2b2e37652b37), (6, 0x2b2e38652b38), (6, 0x2b2e39652b39), (10, 0x3132332e343536306533), (11, 0x3132332e34353630304533), (13, 0x3132332e343536303030652b33),
  (13, 0x3132332e343536303030452b33), (14, 0x3132332e34353630303030653033), (15, 0x3132332e3435363030303030453033), (17, 0x3132332e343536303030303030652b3033),
  (18, 0x3132332e34353630303030303030452b3033), (20, 0x3132332e34353630303030303030306530303033), (21, 0x3132332e3435363030303030303030304530303033),
  (23, 0x3132332e34353630303030303030303030652b30303033), (24, 0x3132332e3435363030303030303030303030452b30303033), (14, 0x2b303132332e343536652b303033),
  (15, 0x2d30303132332e343536452b303033), (15, 0x2b3030303132332e34353630304533), (10, 0x2d3132332e3435366533), (10, 0x2b3132332e3435364533),
  (11, 0x2d3132332e343536652b33), (11, 0x2b3132332e343536452b33), (11, 0x2d3132332e343536653033), (11, 0x2b3132332e343536453033), (12, 0x2d3132332e343536652b3033),
  (12, 0x2b3132332e343536452b3033), (13, 0x2d3132332e3435366530303033), (3, 0x2b302e), (3, 0x2b312e), (3, 0x2b322e), (3, 0x2b332e), (3, 0x2b342e), (3, 0x2b352e),
  (3, 0x2b362e), (3, 0x2b372e), (3, 0x2b382e), (3, 0x2b392e), (3, 0x2d302e), (3, 0x2d312e), (3, 0x2d322e), (3, 0x2d332e), (3, 0x2d342e), (3, 0x2d352e), (3, 0x2d362e),
  (3, 0x2d372e), (3, 0x2d382e), (3, 0x2d392e), (13, 0x2b3132332e3435364530303033), (14, 0x2d3132332e343536652b30303033), (14, 0x2b3132332e343536452b30303033),
  (11, 0x2d3132332e343536306533), (12, 0x2b3132332e34353630304533), (14, 0x2d3132332e343536303030652b33), (14, 0x2b3132332e343536303030452b33),
  (15, 0x2d3132332e34353630303030653033), (16, 0x2b3132332e3435363030303030453033), (18, 0x2d3132332e343536303030303030652b3033),
  (19, 0x2b3132332e34353630303030303030452b3033), (21, 0x2d3132332e34353630303030303030306530303033), (2, 0x302e), (2, 0x312e), (2, 0x322e), (2, 0x332e), (2, 0x342e),
  (2, 0x352e), (2, 0x362e), (2, 0x372e), (2, 0x382e), (2, 0x392e), (2, 0x2e30), (2, 0x2e31), (2, 0x2e32), (2, 0x2e33), (2, 0x2e34), (2, 0x2e35), (2, 0x2e36),
  (2, 0x2e37), (2, 0x2e38), (2, 0x2e39), (22, 0x2b3132332e3435363030303030303030304530303033), (24, 0x2d3132332e34353630303030303030303030652b30303033),
  (25, 0x2b3132332e3435363030303030303030303030452b30303033), (14, 0x2d303132332e343536652b303033), (15, 0x2b30303132332e343536452b303033),
  (15, 0x2d3030303132332e34353630304533), (19, 0x3030303030303132332e343536652b30303033), (3, 0x302e30), (5, 0x30302e3030), (7, 0x3030302e303030),
  (9, 0x303030302e30303030), (5, 0x313233342e), (4, 0x30312e32), (8, 0x303031322e333430), (11, 0x30303031322e3334353030), (4, 0x2b302e30), (4, 0x2b312e30),
  (4, 0x2b322e30), (4, 0x2b332e30), (4, 0x2b342e30), (4, 0x2b352e30), (4, 0x2b362e30), (4, 0x2b372e30), (4, 0x2b382e30), (4, 0x2b392e30), (9, 0x2d302e353935393332),
  (9, 0x2b302e373830303035), (9, 0x2d302e383932373235), (8, 0x302e323431373635), (9, 0x2d302e313638303534), (9, 0x2b302e363837393232), (9, 0x2b302e333236313836),
  (9, 0x2d302e353537363838), (8, 0x302e353234373732), (9, 0x2d302e333136363130), (9, 0x2b302e343531373934), (9, 0x2d302e323333313439), (5, 0x2e30652b30),
  (5, 0x2e31652b31), (5, 0x2e32652b32), (5, 0x2e33652b33), (5, 0x2e34652b34), (5, 0x2e35652b35), (5, 0x2e36652b36), (5, 0x2e37652b37), (5, 0x2e38652b38),
  (5, 0x2e39652b39), (6, 0x2d2e30652b30), (6, 0x2d2e31652b31), (6, 0x2d2e32652b32), (6, 0x2d2e33652b33), (6, 0x2d2e34652b34), (6, 0x2d2e35652b35), (6, 0x2d2e36652b36),
  (6, 0x2d2e37652b37)]

/-- Texts 403 to 536 of the 1072 texts of `v` (568-752), each as its length and its bytes in hexadecimal; the first is `-.8e+8`. -/
def s2dTexts3 : List (Nat × Nat) := [
  (6, 0x2d2e38652b38), (6, 0x2d2e39652b39), (9, 0x2d302e353133373333), (8, 0x302e383237313730), (9, 0x2d302e333234333239), (9, 0x2b302e393434383633),
  (9, 0x2d302e383234343437), (8, 0x302e393633373733), (8, 0x302e373832353837), (9, 0x2d302e393431313935), (9, 0x2b302e393737323430), (9, 0x2d302e313430343933),
  (8, 0x302e383834393530), (9, 0x2d302e353033343637), (6, 0x2e3030452b30), (6, 0x2e3031452b31), (6, 0x2e3032452b32), (6, 0x2e3033452b33), (6, 0x2e3034452b34),
  (6, 0x2e3035452b35), (6, 0x2e3036452b36), (6, 0x2e3037452b37), (6, 0x2e3038452b38), (6, 0x2e3039452b39), (6, 0x2e30452b3030), (6, 0x2e31452b3031),
  (6, 0x2e32452b3032), (6, 0x2e33452b3033), (6, 0x2e34452b3034), (6, 0x2e35452b3035), (6, 0x2e36452b3036), (6, 0x2e37452b3037), (6, 0x2e38452b3038),
  (6, 0x2e39452b3039), (9, 0x2d302e363039313238), (9, 0x2b302e343830323334), (9, 0x2d302e313235323732), (9, 0x2b302e343034343737), (9, 0x2d302e363837383538),
  (9, 0x2b302e343534303931), (9, 0x2b302e363238383732), (9, 0x2d302e343338313930), (8, 0x302e373739313530), (9, 0x2d302e393635373636), (9, 0x2b302e333834393638),
  (9, 0x2d302e363230323030), (9, 0x2d302e363831373531), (8, 0x302e353137343733), (9, 0x2d302e373030373533), (9, 0x2b302e393430333139), (9, 0x2d302e383832323530),
  (8, 0x302e353931323337), (3, 0x302e30), (3, 0x312e30), (3, 0x322e30), (3, 0x332e30), (3, 0x342e30), (3, 0x352e30), (3, 0x362e30), (3, 0x372e30), (3, 0x382e30),
  (3, 0x392e30), (21, 0x303030303030303031312e30303030303030303131), (21, 0x303030303030303032322e30303030303030303232),
  (21, 0x303030303030303033332e30303030303030303333), (21, 0x303030303030303034342e30303030303030303434), (21, 0x303030303030303131312e30303030303030313131),
  (21, 0x303030303030303232322e30303030303030323232), (21, 0x303030303030303333332e30303030303030333333), (21, 0x303030303030303434342e30303030303030343434),
  (21, 0x303030303030313131312e30303030303031313131), (21, 0x303030303030323232322e30303030303032323232), (21, 0x303030303030333333332e30303030303033333333),
  (21, 0x303030303030343434342e30303030303034343434), (21, 0x303030303031313131312e30303030303131313131), (21, 0x303030303032323232322e30303030303232323232),
  (21, 0x303030303033333333332e30303030303333333333), (21, 0x303030303034343434342e30303030303434343434), (21, 0x303030303131313131312e30303030313131313131),
  (21, 0x303030303232323232322e30303030323232323232), (21, 0x303030303333333333332e30303030333333333333), (21, 0x303030303434343434342e30303030343434343434),
  (21, 0x303030313131313131312e30303031313131313131), (21, 0x303030323232323232322e30303032323232323232), (21, 0x303030333333333333332e30303033333333333333),
  (21, 0x303030343434343434342e30303034343434343434), (21, 0x303031313131313131312e30303131313131313131), (21, 0x303032323232323232322e30303232323232323232),
  (21, 0x303033333333333333332e30303333333333333333), (21, 0x303034343434343434342e30303434343434343434), (21, 0x303131313131313131312e30313131313131313131),
  (21, 0x303232323232323232322e30323232323232323232), (21, 0x303333333333333333332e30333333333333333333), (21, 0x303434343434343434342e30343434343434343434),
  (20, 0x2d3030303030303031312e303030303030303131), (20, 0x2d3030303030303032322e303030303030303232), (20, 0x2d3030303030303033332e303030303030303333),
  (20, 0x2d3030303030303034342e303030303030303434), (20, 0x2d3030303030303131312e303030303030313131), (20, 0x2d3030303030303232322e303030303030323232),
  (20, 0x2d3030303030303333332e303030303030333333), (20, 0x2d3030303030303434342e303030303030343434), (20, 0x2d3030303030313131312e303030303031313131),
  (20, 0x2d3030303030323232322e303030303032323232), (20, 0x2d3030303030333333332e303030303033333333), (20, 0x2d3030303030343434342e303030303034343434),
  (20, 0x2d3030303031313131312e303030303131313131), (20, 0x2d3030303032323232322e303030303232323232), (20, 0x2d3030303033333333332e303030303333333333),
  (20, 0x2d3030303034343434342e303030303434343434), (20, 0x2d3030303131313131312e303030313131313131), (20, 0x2d3030303232323232322e303030323232323232),
  (20, 0x2d3030303333333333332e303030333333333333), (20, 0x2d3030303434343434342e303030343434343434), (20, 0x2d3030313131313131312e303031313131313131),
  (20, 0x2d3030323232323232322e303032323232323232), (20, 0x2d3030333333333333332e303033333333333333), (20, 0x2d3030343434343434342e303034343434343434),
  (20, 0x2d3031313131313131312e303131313131313131), (20, 0x2d3032323232323232322e303232323232323232), (20, 0x2d3033333333333333332e303333333333333333),
  (20, 0x2d3034343434343434342e303434343434343434), (20, 0x2d3131313131313131312e313131313131313131), (20, 0x2d3232323232323232322e323232323232323232),
  (20, 0x2d3333333333333333332e333333333333333333), (20, 0x2d3434343434343434342e343434343434343434), (20, 0x2d3030303030303038382e303030303030303838),
  (21, 0x303030303030303035352e30303030303030303535), (21, 0x303030303030303036362e30303030303030303636), (21, 0x303030303030303037372e30303030303030303737),
  (20, 0x2d3030303030303838382e303030303030383838), (21, 0x303030303030303535352e30303030303030353535), (21, 0x303030303030303636362e30303030303030363636),
  (21, 0x303030303030303737372e30303030303030373737)]

/-- Texts 537 to 670 of the 1072 texts of `v` (568-752), each as its length and its bytes in hexadecimal; the first is `-000008888.000008888`. -/
def s2dTexts4 : List (Nat × Nat) := [
  (20, 0x2d3030303030383838382e303030303038383838), (21, 0x303030303030353535352e30303030303035353535), (21, 0x303030303030363636362e30303030303036363636),
  (21, 0x303030303030373737372e30303030303037373737), (20, 0x2d3030303038383838382e303030303838383838), (21, 0x303030303035353535352e30303030303535353535),
  (21, 0x303030303036363636362e30303030303636363636), (21, 0x303030303037373737372e30303030303737373737), (20, 0x2d3030303838383838382e303030383838383838),
  (21, 0x303030303535353535352e30303030353535353535), (21, 0x303030303636363636362e30303030363636363636), (21, 0x303030303737373737372e30303030373737373737),
  (20, 0x2d3030383838383838382e303038383838383838), (21, 0x303030353535353535352e30303035353535353535), (21, 0x303030363636363636362e30303036363636363636),
  (21, 0x303030373737373737372e30303037373737373737), (20, 0x2d3038383838383838382e303838383838383838), (21, 0x303035353535353535352e30303535353535353535),
  (21, 0x303036363636363636362e30303636363636363636), (21, 0x303037373737373737372e30303737373737373737), (20, 0x2d3838383838383838382e383838383838383838),
  (21, 0x303535353535353535352e30353535353535353535), (21, 0x303636363636363636362e30363636363636363636), (21, 0x303737373737373737372e30373737373737373737),
  (21, 0x303030303030303038382e30303030303030303838), (21, 0x303030303030303039392e30303030303030303939), (20, 0x2d3030303030303035352e303030303030303535),
  (20, 0x2d3030303030303036362e303030303030303636), (21, 0x303030303030303838382e30303030303030383838), (21, 0x303030303030303939392e30303030303030393939),
  (20, 0x2d3030303030303535352e303030303030353535), (20, 0x2d3030303030303636362e303030303030363636), (21, 0x303030303030383838382e30303030303038383838),
  (21, 0x303030303030393939392e30303030303039393939), (20, 0x2d3030303030353535352e303030303035353535), (20, 0x2d3030303030363636362e303030303036363636),
  (21, 0x303030303038383838382e30303030303838383838), (21, 0x303030303039393939392e30303030303939393939), (20, 0x2d3030303035353535352e303030303535353535),
  (20, 0x2d3030303036363636362e303030303636363636), (21, 0x303030303838383838382e30303030383838383838), (21, 0x303030303939393939392e30303030393939393939),
  (20, 0x2d3030303535353535352e303030353535353535), (20, 0x2d3030303636363636362e303030363636363636), (21, 0x303030383838383838382e30303038383838383838),
  (21, 0x303030393939393939392e30303039393939393939), (20, 0x2d3030353535353535352e303035353535353535), (20, 0x2d3030363636363636362e303036363636363636),
  (21, 0x303038383838383838382e30303838383838383838), (21, 0x303039393939393939392e30303939393939393939), (20, 0x2d3035353535353535352e303535353535353535),
  (20, 0x2d3036363636363636362e303636363636363636), (21, 0x303838383838383838382e30383838383838383838), (21, 0x303939393939393939392e30393939393939393939),
  (20, 0x2d3535353535353535352e353535353535353535), (20, 0x2d3636363636363636362e363636363636363636),
  (33, 0x303030303030313233343536373839302e30303030303031323334353637383930), (34, 0x2b303030303030313233343536373839302e30303030303031323334353637383930),
  (34, 0x2d303030303030313233343536373839302e30303030303031323334353637383930), (31, 0x3030303030313233343536373839302e303030303031323334353637383930),
  (32, 0x2b3030303030313233343536373839302e303030303031323334353637383930), (32, 0x2d3030303030313233343536373839302e303030303031323334353637383930),
  (29, 0x30303030313233343536373839302e3030303031323334353637383930), (30, 0x2b30303030313233343536373839302e3030303031323334353637383930),
  (30, 0x2d30303030313233343536373839302e3030303031323334353637383930), (27, 0x303030313233343536373839302e30303031323334353637383930),
  (28, 0x2b303030313233343536373839302e30303031323334353637383930), (28, 0x2d303030313233343536373839302e30303031323334353637383930),
  (25, 0x3030313233343536373839302e303031323334353637383930), (26, 0x2b3030313233343536373839302e303031323334353637383930),
  (26, 0x2d3030313233343536373839302e303031323334353637383930), (23, 0x30313233343536373839302e3031323334353637383930),
  (24, 0x2b30313233343536373839302e3031323334353637383930), (24, 0x2d30313233343536373839302e3031323334353637383930),
  (21, 0x313233343536373839302e31323334353637383930), (22, 0x2b313233343536373839302e31323334353637383930), (22, 0x2d313233343536373839302e31323334353637383930),
  (3, 0x302e31), (4, 0x302e3031), (5, 0x302e303031), (6, 0x302e30303031), (7, 0x302e3030303031), (8, 0x302e303030303031), (9, 0x302e30303030303031),
  (10, 0x302e3030303030303031), (11, 0x302e303030303030303031), (3, 0x302e32), (4, 0x302e3032), (5, 0x302e303032), (6, 0x302e30303032), (7, 0x302e3030303032),
  (8, 0x302e303030303032), (9, 0x302e30303030303032), (10, 0x302e3030303030303032), (11, 0x302e303030303030303032), (3, 0x302e33), (4, 0x302e3033), (5, 0x302e303033),
  (6, 0x302e30303033), (7, 0x302e3030303033), (8, 0x302e303030303033), (9, 0x302e30303030303033), (10, 0x302e3030303030303033), (11, 0x302e303030303030303033),
  (3, 0x302e34), (4, 0x302e3034), (5, 0x302e303034), (6, 0x302e30303034), (7, 0x302e3030303034), (8, 0x302e303030303034), (9, 0x302e30303030303034),
  (10, 0x302e3030303030303034), (11, 0x302e303030303030303034), (3, 0x302e35), (4, 0x302e3035), (5, 0x302e303035), (6, 0x302e30303035), (7, 0x302e3030303035),
  (8, 0x302e303030303035), (9, 0x302e30303030303035), (10, 0x302e3030303030303035), (11, 0x302e303030303030303035), (3, 0x302e36), (4, 0x302e3036), (5, 0x302e303036),
  (6, 0x302e30303036), (7, 0x302e3030303036), (8, 0x302e303030303036), (9, 0x302e30303030303036), (10, 0x302e3030303030303036), (11, 0x302e303030303030303036),
  (3, 0x302e37), (4, 0x302e3037), (5, 0x302e303037)]

/-- Texts 671 to 804 of the 1072 texts of `v` (568-752), each as its length and its bytes in hexadecimal; the first is `0.0007`. -/
def s2dTexts5 : List (Nat × Nat) := [
  (6, 0x302e30303037), (7, 0x302e3030303037), (8, 0x302e303030303037), (9, 0x302e30303030303037), (10, 0x302e3030303030303037), (11, 0x302e303030303030303037),
  (3, 0x302e38), (4, 0x302e3038), (5, 0x302e303038), (6, 0x302e30303038), (7, 0x302e3030303038), (8, 0x302e303030303038), (9, 0x302e30303030303038),
  (10, 0x302e3030303030303038), (11, 0x302e303030303030303038), (3, 0x302e39), (4, 0x302e3039), (5, 0x302e303039), (6, 0x302e30303039), (7, 0x302e3030303039),
  (8, 0x302e303030303039), (9, 0x302e30303030303039), (10, 0x302e3030303030303039), (11, 0x302e303030303030303039), (4, 0x2b302e31), (5, 0x2b302e3031),
  (6, 0x2b302e303031), (7, 0x2b302e30303031), (8, 0x2b302e3030303031), (9, 0x2b302e303030303031), (10, 0x2b302e30303030303031), (11, 0x2b302e3030303030303031),
  (12, 0x2b302e303030303030303031), (4, 0x2b302e32), (5, 0x2b302e3032), (6, 0x2b302e303032), (7, 0x2b302e30303032), (8, 0x2b302e3030303032), (9, 0x2b302e303030303032),
  (10, 0x2b302e30303030303032), (11, 0x2b302e3030303030303032), (12, 0x2b302e303030303030303032), (4, 0x2b302e33), (5, 0x2b302e3033), (6, 0x2b302e303033),
  (7, 0x2b302e30303033), (8, 0x2b302e3030303033), (9, 0x2b302e303030303033), (10, 0x2b302e30303030303033), (11, 0x2b302e3030303030303033),
  (12, 0x2b302e303030303030303033), (4, 0x2b302e34), (5, 0x2b302e3034), (6, 0x2b302e303034), (7, 0x2b302e30303034), (8, 0x2b302e3030303034), (9, 0x2b302e303030303034),
  (10, 0x2b302e30303030303034), (11, 0x2b302e3030303030303034), (12, 0x2b302e303030303030303034), (4, 0x2b302e35), (5, 0x2b302e3035), (6, 0x2b302e303035),
  (7, 0x2b302e30303035), (8, 0x2b302e3030303035), (9, 0x2b302e303030303035), (10, 0x2b302e30303030303035), (11, 0x2b302e3030303030303035),
  (12, 0x2b302e303030303030303035), (4, 0x2b302e36), (5, 0x2b302e3036), (6, 0x2b302e303036), (7, 0x2b302e30303036), (8, 0x2b302e3030303036), (9, 0x2b302e303030303036),
  (10, 0x2b302e30303030303036), (11, 0x2b302e3030303030303036), (12, 0x2b302e303030303030303036), (4, 0x2b302e37), (5, 0x2b302e3037), (6, 0x2b302e303037),
  (7, 0x2b302e30303037), (8, 0x2b302e3030303037), (9, 0x2b302e303030303037), (10, 0x2b302e30303030303037), (11, 0x2b302e3030303030303037),
  (12, 0x2b302e303030303030303037), (4, 0x2b302e38), (5, 0x2b302e3038), (6, 0x2b302e303038), (7, 0x2b302e30303038), (8, 0x2b302e3030303038), (9, 0x2b302e303030303038),
  (10, 0x2b302e30303030303038), (11, 0x2b302e3030303030303038), (12, 0x2b302e303030303030303038), (4, 0x2b302e39), (5, 0x2b302e3039), (6, 0x2b302e303039),
  (7, 0x2b302e30303039), (8, 0x2b302e3030303039), (9, 0x2b302e303030303039), (10, 0x2b302e30303030303039), (11, 0x2b302e3030303030303039),
  (12, 0x2b302e303030303030303039), (4, 0x2d302e31), (5, 0x2d302e3031), (6, 0x2d302e303031), (7, 0x2d302e30303031), (8, 0x2d302e3030303031), (9, 0x2d302e303030303031),
  (10, 0x2d302e30303030303031), (11, 0x2d302e3030303030303031), (12, 0x2d302e303030303030303031), (4, 0x2d302e32), (5, 0x2d302e3032), (6, 0x2d302e303032),
  (7, 0x2d302e30303032), (8, 0x2d302e3030303032), (9, 0x2d302e303030303032), (10, 0x2d302e30303030303032), (11, 0x2d302e3030303030303032),
  (12, 0x2d302e303030303030303032), (4, 0x2d302e33), (5, 0x2d302e3033), (6, 0x2d302e303033), (7, 0x2d302e30303033), (8, 0x2d302e3030303033), (9, 0x2d302e303030303033),
  (10, 0x2d302e30303030303033), (11, 0x2d302e3030303030303033), (12, 0x2d302e303030303030303033), (4, 0x2d302e34), (5, 0x2d302e3034)]

/-- Texts 805 to 938 of the 1072 texts of `v` (568-752), each as its length and its bytes in hexadecimal; the first is `-0.004`. -/
def s2dTexts6 : List (Nat × Nat) := [
  (6, 0x2d302e303034), (7, 0x2d302e30303034), (8, 0x2d302e3030303034), (9, 0x2d302e303030303034), (10, 0x2d302e30303030303034), (11, 0x2d302e3030303030303034),
  (12, 0x2d302e303030303030303034), (4, 0x2d302e35), (5, 0x2d302e3035), (6, 0x2d302e303035), (7, 0x2d302e30303035), (8, 0x2d302e3030303035), (9, 0x2d302e303030303035),
  (10, 0x2d302e30303030303035), (11, 0x2d302e3030303030303035), (12, 0x2d302e303030303030303035), (4, 0x2d302e36), (5, 0x2d302e3036), (6, 0x2d302e303036),
  (7, 0x2d302e30303036), (8, 0x2d302e3030303036), (9, 0x2d302e303030303036), (10, 0x2d302e30303030303036), (11, 0x2d302e3030303030303036),
  (12, 0x2d302e303030303030303036), (4, 0x2d302e37), (5, 0x2d302e3037), (6, 0x2d302e303037), (7, 0x2d302e30303037), (8, 0x2d302e3030303037), (9, 0x2d302e303030303037),
  (10, 0x2d302e30303030303037), (11, 0x2d302e3030303030303037), (12, 0x2d302e303030303030303037), (4, 0x2d302e38), (5, 0x2d302e3038), (6, 0x2d302e303038),
  (7, 0x2d302e30303038), (8, 0x2d302e3030303038), (9, 0x2d302e303030303038), (10, 0x2d302e30303030303038), (11, 0x2d302e3030303030303038),
  (12, 0x2d302e303030303030303038), (4, 0x2d302e39), (5, 0x2d302e3039), (6, 0x2d302e303039), (7, 0x2d302e30303039), (8, 0x2d302e3030303039), (9, 0x2d302e303030303039),
  (10, 0x2d302e30303030303039), (11, 0x2d302e3030303030303039), (12, 0x2d302e303030303030303039), (4, 0x312e3031), (5, 0x302e313031), (6, 0x312e30313031),
  (7, 0x302e3130313031), (8, 0x312e303130313031), (9, 0x302e31303130313031), (10, 0x312e3031303130313031), (11, 0x312e313031303130313031), (4, 0x322e3032),
  (5, 0x302e323032), (6, 0x322e30323032), (7, 0x302e3230323032), (8, 0x322e303230323032), (9, 0x302e32303230323032), (10, 0x322e3032303230323032),
  (11, 0x322e323032303230323032), (4, 0x332e3033), (5, 0x302e333033), (6, 0x332e30333033), (7, 0x302e3330333033), (8, 0x332e303330333033), (9, 0x302e33303330333033),
  (10, 0x332e3033303330333033), (11, 0x332e333033303330333033), (4, 0x342e3034), (5, 0x302e343034), (6, 0x342e30343034), (7, 0x302e3430343034), (8, 0x342e303430343034),
  (9, 0x302e34303430343034), (10, 0x342e3034303430343034), (11, 0x342e343034303430343034), (4, 0x352e3035), (5, 0x302e353035), (6, 0x352e30353035),
  (7, 0x302e3530353035), (8, 0x352e303530353035), (9, 0x302e35303530353035), (10, 0x352e3035303530353035), (11, 0x352e353035303530353035), (4, 0x362e3036),
  (5, 0x302e363036), (6, 0x362e30363036), (7, 0x302e3630363036), (8, 0x362e303630363036), (9, 0x302e36303630363036), (10, 0x362e3036303630363036),
  (11, 0x362e363036303630363036), (4, 0x372e3037), (5, 0x302e373037), (6, 0x372e30373037), (7, 0x302e3730373037), (8, 0x372e303730373037), (9, 0x302e37303730373037),
  (10, 0x372e3037303730373037), (11, 0x372e373037303730373037), (4, 0x382e3038), (5, 0x302e383038), (6, 0x382e30383038), (7, 0x302e3830383038), (8, 0x382e303830383038),
  (9, 0x302e38303830383038), (10, 0x382e3038303830383038), (11, 0x382e383038303830383038), (4, 0x392e3039), (5, 0x302e393039), (6, 0x392e30393039),
  (7, 0x302e3930393039), (8, 0x392e303930393039), (9, 0x302e39303930393039), (10, 0x392e3039303930393039), (11, 0x392e393039303930393039), (5, 0x2b312e3031),
  (6, 0x2b302e313031), (7, 0x2b312e30313031), (8, 0x2b302e3130313031), (9, 0x2b312e303130313031), (10, 0x2b302e31303130313031), (11, 0x2b312e3031303130313031),
  (12, 0x2b312e313031303130313031), (5, 0x2b322e3032), (6, 0x2b302e323032)]

/-- Texts 939 to 1072 of the 1072 texts of `v` (568-752), each as its length and its bytes in hexadecimal; the first is `+2.0202`. -/
def s2dTexts7 : List (Nat × Nat) := [
  (7, 0x2b322e30323032), (8, 0x2b302e3230323032), (9, 0x2b322e303230323032), (10, 0x2b302e32303230323032), (11, 0x2b322e3032303230323032),
  (12, 0x2b322e323032303230323032), (5, 0x2b332e3033), (6, 0x2b302e333033), (7, 0x2b332e30333033), (8, 0x2b302e3330333033), (9, 0x2b332e303330333033),
  (10, 0x2b302e33303330333033), (11, 0x2b332e3033303330333033), (12, 0x2b332e333033303330333033), (5, 0x2b342e3034), (6, 0x2b302e343034), (7, 0x2b342e30343034),
  (8, 0x2b302e3430343034), (9, 0x2b342e303430343034), (10, 0x2b302e34303430343034), (11, 0x2b342e3034303430343034), (12, 0x2b342e343034303430343034), (5, 0x2b352e3035),
  (6, 0x2b302e353035), (7, 0x2b352e30353035), (8, 0x2b302e3530353035), (9, 0x2b352e303530353035), (10, 0x2b302e35303530353035), (11, 0x2b352e3035303530353035),
  (12, 0x2b352e353035303530353035), (5, 0x2b362e3036), (6, 0x2b302e363036), (7, 0x2b362e30363036), (8, 0x2b302e3630363036), (9, 0x2b362e303630363036),
  (10, 0x2b302e36303630363036), (11, 0x2b362e3036303630363036), (12, 0x2b362e363036303630363036), (5, 0x2b372e3037), (6, 0x2b302e373037), (7, 0x2b372e30373037),
  (8, 0x2b302e3730373037), (9, 0x2b372e303730373037), (10, 0x2b302e37303730373037), (11, 0x2b372e3037303730373037), (12, 0x2b372e373037303730373037), (5, 0x2b382e3038),
  (6, 0x2b302e383038), (7, 0x2b382e30383038), (8, 0x2b302e3830383038), (9, 0x2b382e303830383038), (10, 0x2b302e38303830383038), (11, 0x2b382e3038303830383038),
  (12, 0x2b382e383038303830383038), (5, 0x2b392e3039), (6, 0x2b302e393039), (7, 0x2b392e30393039), (8, 0x2b302e3930393039), (9, 0x2b392e303930393039),
  (10, 0x2b302e39303930393039), (11, 0x2b392e3039303930393039), (12, 0x2b392e393039303930393039), (5, 0x2d312e3031), (6, 0x2d302e313031), (7, 0x2d312e30313031),
  (8, 0x2d302e3130313031), (9, 0x2d312e303130313031), (10, 0x2d302e31303130313031), (11, 0x2d312e3031303130313031), (12, 0x2d312e313031303130313031), (5, 0x2d322e3032),
  (6, 0x2d302e323032), (7, 0x2d322e30323032), (8, 0x2d302e3230323032), (9, 0x2d322e303230323032), (10, 0x2d302e32303230323032), (11, 0x2d322e3032303230323032),
  (12, 0x2d322e323032303230323032), (5, 0x2d332e3033), (6, 0x2d302e333033), (7, 0x2d332e30333033), (8, 0x2d302e3330333033), (9, 0x2d332e303330333033),
  (10, 0x2d302e33303330333033), (11, 0x2d332e3033303330333033), (12, 0x2d332e333033303330333033), (5, 0x2d342e3034), (6, 0x2d302e343034), (7, 0x2d342e30343034),
  (8, 0x2d302e3430343034), (9, 0x2d342e303430343034), (10, 0x2d302e34303430343034), (11, 0x2d342e3034303430343034), (12, 0x2d342e343034303430343034), (5, 0x2d352e3035),
  (6, 0x2d302e353035), (7, 0x2d352e30353035), (8, 0x2d302e3530353035), (9, 0x2d352e303530353035), (10, 0x2d302e35303530353035), (11, 0x2d352e3035303530353035),
  (12, 0x2d352e353035303530353035), (5, 0x2d362e3036), (6, 0x2d302e363036), (7, 0x2d362e30363036), (8, 0x2d302e3630363036), (9, 0x2d362e303630363036),
  (10, 0x2d302e36303630363036), (11, 0x2d362e3036303630363036), (12, 0x2d362e363036303630363036), (5, 0x2d372e3037), (6, 0x2d302e373037), (7, 0x2d372e30373037),
  (8, 0x2d302e3730373037), (9, 0x2d372e303730373037), (10, 0x2d302e37303730373037), (11, 0x2d372e3037303730373037), (12, 0x2d372e373037303730373037), (5, 0x2d382e3038),
  (6, 0x2d302e383038), (7, 0x2d382e30383038), (8, 0x2d302e3830383038), (9, 0x2d382e303830383038), (10, 0x2d302e38303830383038), (11, 0x2d382e3038303830383038),
  (12, 0x2d382e383038303830383038), (5, 0x2d392e3039), (6, 0x2d302e393039), (7, 0x2d392e30393039), (8, 0x2d302e3930393039), (9, 0x2d392e303930393039),
  (10, 0x2d302e39303930393039), (11, 0x2d392e3039303930393039), (12, 0x2d392e393039303930393039)]

/-- The texts of pairs of lengths and numbers. -/
def textsOf (l : List (Nat × Nat)) : List (List Number.Byte) := l.map fun e => bytesOf e.1 e.2

/-- The list `v` (568-752). -/
def s2dList : List (List Number.Byte) :=
  textsOf s2dTexts0 ++ (textsOf s2dTexts1 ++ (textsOf s2dTexts2 ++ (textsOf s2dTexts3 ++ (textsOf s2dTexts4 ++ (textsOf s2dTexts5 ++ (textsOf s2dTexts6 ++ (textsOf s2dTexts7)))))))

/-! ## Reading decimal texts -/

/-- A sign, whether it is a minus, and what follows. -/
def takeSign : List Number.Byte → List Number.Byte × Bool × List Number.Byte
  | [] => ([], false, [])
  | c :: r => if c = 45 then ([c], true, r) else if c = 43 then ([c], false, r) else ([], false, c :: r)

theorem takeSign_ok (w : List Number.Byte) : w = (takeSign w).1 ++ (takeSign w).2.2 ∧ Sign (takeSign w).1 (takeSign w).2.1 := by
  cases w with
  | nil => exact ⟨rfl, Or.inl ⟨rfl, rfl⟩⟩
  | cons c r =>
    rw [takeSign]
    split
    · rename_i h; subst h; exact ⟨rfl, Or.inr (Or.inr ⟨rfl, rfl⟩)⟩
    · split
      · rename_i h; subst h; exact ⟨rfl, Or.inr (Or.inl ⟨rfl, rfl⟩)⟩
      · exact ⟨rfl, Or.inl ⟨rfl, rfl⟩⟩

/-- Leading digits, and what follows. -/
def takeDigits (w : List Number.Byte) : List Number.Byte × List Number.Byte := (w.takeWhile fun c => isDigit c, w.dropWhile fun c => isDigit c)

theorem takeDigits_ok (w : List Number.Byte) : w = (takeDigits w).1 ++ (takeDigits w).2 ∧ ∀ c ∈ (takeDigits w).1, isDigit c :=
  ⟨List.takeWhile_append_dropWhile.symm, fun c hc => by simpa using (List.all_eq_true.mp List.all_takeWhile) c hc⟩

/-- A fraction, its digits, and what follows. -/
def takeFraction : List Number.Byte → List Number.Byte × List Number.Byte × List Number.Byte
  | [] => ([], [], [])
  | c :: r => if c = 46 then (46 :: (takeDigits r).1, takeDigits r) else ([], [], c :: r)

theorem takeFraction_ok (w : List Number.Byte) : w = (takeFraction w).1 ++ (takeFraction w).2.2 ∧ Fraction (takeFraction w).1 (takeFraction w).2.1 := by
  cases w with
  | nil => exact ⟨rfl, Or.inl ⟨rfl, rfl⟩⟩
  | cons c r =>
    rw [takeFraction]
    split
    · rename_i h
      subst h
      exact ⟨congrArg (46 :: ·) (takeDigits_ok r).1, Or.inr ⟨rfl, (takeDigits_ok r).2⟩⟩
    · exact ⟨rfl, Or.inl ⟨rfl, rfl⟩⟩

/-- An exponent to the end of the text: its digits and its value. -/
def wholeExponent : List Number.Byte → Option (List Number.Byte × Int)
  | [] => some ([], 0)
  | c :: r =>
    let s := takeSign r
    if (c = 101 ∨ c = 69) ∧ s.2.2 ≠ [] ∧ ∀ d ∈ s.2.2, isDigit d then some (s.2.2, if s.2.1 then -(decVal s.2.2 : Int) else decVal s.2.2) else none

theorem wholeExponent_ok {w ed : List Number.Byte} {x : Int} (h : wholeExponent w = some (ed, x)) : Exponent w ed x ∧ (w ≠ [] → ed ≠ []) := by
  cases w with
  | nil => cases h; exact ⟨Or.inl ⟨rfl, rfl, rfl⟩, fun h => absurd rfl h⟩
  | cons c r =>
    rw [wholeExponent] at h
    split at h
    · rename_i hc
      cases h
      exact ⟨Or.inr ⟨c, (takeSign r).1, (takeSign r).2.1, hc.1, (takeSign_ok r).2, hc.2.2, congrArg (c :: ·) (takeSign_ok r).1, rfl⟩, fun _ => hc.2.1⟩
    · cases h

/-- A bound of the absolute value of a decimal text of moderate size. -/
def magnitude (w : List Number.Byte) : Option Nat :=
  let s := takeSign w
  let i := takeDigits s.2.2
  let f := takeFraction i.2
  match wholeExponent f.2.2 with
  | none => none
  | some (_, x) =>
    if i.1 ++ f.2.1 ≠ [] ∧ f.2.1.length ≤ 40 ∧ -40 ≤ x ∧ x ≤ 40 ∧ decVal i.1 ≤ 10 ^ 40 then
      some (((decVal i.1 * 10 ^ f.2.1.length + decVal f.2.1) * 10 ^ x.toNat + (10 ^ f.2.1.length - 1)) / 10 ^ f.2.1.length)
    else none

theorem magnitude_ok {w : List Number.Byte} {m : Nat} (h : magnitude w = some m) : ∃ v : ℚ, DecimalText w v ∧ |v| ≤ m := by
  rw [magnitude] at h
  have e1 := takeSign_ok w
  generalize takeSign w = s at *
  have e2 := takeDigits_ok s.2.2
  generalize takeDigits s.2.2 = i at *
  have e3 := takeFraction_ok i.2
  generalize takeFraction i.2 = f at *
  cases e4 : wholeExponent f.2.2 with
  | none => rw [e4] at h; cases h
  | some p =>
    obtain ⟨ed, x⟩ := p
    rw [e4] at h
    simp only at h
    have e5 := wholeExponent_ok e4
    split at h
    · rename_i hc
      obtain ⟨h1, h2, h3, h4, h5⟩ := hc
      cases h
      have hfd : ∀ c ∈ f.2.1, isDigit c := by
        rcases e3.2 with h | h
        · rw [h.2]; simp
        · exact h.2
      have hlt : decVal f.2.1 < 10 ^ f.2.1.length := Number.decVal_lt _ hfd
      generalize hval : ((decVal i.1 : ℚ) + decVal f.2.1 / 10 ^ f.2.1.length) * (10 : ℚ) ^ x = v
      have hq : (0 : ℚ) < 10 ^ f.2.1.length := by positivity
      have hxle : (10 : ℚ) ^ x ≤ 10 ^ x.toNat := by
        rw [← zpow_natCast]
        exact zpow_le_zpow_right₀ (by norm_num) (Int.self_le_toNat x)
      have hv0 : 0 ≤ v := by rw [← hval]; positivity
      have hm : v ≤ (((decVal i.1 * 10 ^ f.2.1.length + decVal f.2.1) * 10 ^ x.toNat + (10 ^ f.2.1.length - 1)) / 10 ^ f.2.1.length : ℕ) := by
        have hb : (decVal i.1 * 10 ^ f.2.1.length + decVal f.2.1) * 10 ^ x.toNat ≤
            ((decVal i.1 * 10 ^ f.2.1.length + decVal f.2.1) * 10 ^ x.toNat + (10 ^ f.2.1.length - 1)) / 10 ^ f.2.1.length * 10 ^ f.2.1.length := by
          have hp : 0 < 10 ^ f.2.1.length := by positivity
          generalize (decVal i.1 * 10 ^ f.2.1.length + decVal f.2.1) * 10 ^ x.toNat = a at *
          generalize 10 ^ f.2.1.length = b at *
          have := Nat.div_add_mod (a + (b - 1)) b
          have := Nat.mod_lt (a + (b - 1)) hp
          rw [Nat.mul_comm b] at *
          omega
        have hb' : (((decVal i.1 * 10 ^ f.2.1.length + decVal f.2.1) * 10 ^ x.toNat : ℕ) : ℚ) ≤ _ := Nat.cast_le.mpr hb
        rw [Nat.cast_mul _ (10 ^ f.2.1.length)] at hb'
        generalize ((((decVal i.1 * 10 ^ f.2.1.length + decVal f.2.1) * 10 ^ x.toNat + (10 ^ f.2.1.length - 1)) / 10 ^ f.2.1.length : ℕ) : ℚ) = m at *
        push_cast at hb'
        rw [← hval]
        have : ((decVal i.1 : ℚ) + decVal f.2.1 / 10 ^ f.2.1.length) * 10 ^ x.toNat ≤ m := by
          rw [← mul_le_mul_iff_left₀ hq]
          refine le_trans (le_of_eq ?_) hb'
          field_simp
        exact le_trans (mul_le_mul_of_nonneg_left hxle (by positivity)) this
      refine ⟨if s.2.1 then -v else v, ⟨s.1, s.2.1, i.1, f.1, f.2.1, f.2.2, ed, x, [], ?_, e1.2, e2.2, e3.2, h1, e5.1, e5.2, Or.inl rfl, ?_, by omega, by omega, ?_, by rw [hval]⟩, ?_⟩
      · rw [List.append_nil, ← e3.1, ← e2.1]; exact e1.1
      · calc decVal i.1 ≤ 10 ^ 40 := h5
          _ < 1797693134 * 10 ^ 299 := by norm_num
      · have hi : (decVal i.1 : ℚ) ≤ 10 ^ 40 := by exact_mod_cast h5
        have hf : (decVal f.2.1 : ℚ) / 10 ^ f.2.1.length ≤ 1 := by
          rw [div_le_one hq]
          exact_mod_cast hlt.le
        have hx : (10 : ℚ) ^ x ≤ 10 ^ (40 : ℤ) := zpow_le_zpow_right₀ (by norm_num) h4
        calc ((decVal i.1 : ℚ) + decVal f.2.1 / 10 ^ f.2.1.length) * (10 : ℚ) ^ x ≤ (10 ^ 40 + 1) * 10 ^ (40 : ℤ) :=
              mul_le_mul (add_le_add hi hf) hx (by positivity) (by norm_num)
          _ ≤ 1797693134 * 10 ^ 299 := by norm_num
      · have : |if s.2.1 then -v else v| = v := by split <;> simp [abs_of_nonneg hv0]
        rw [this]
        exact hm
    · cases h

/-! ## The list -/

/-- The sum of the bounds. -/
def magnitudes : List (List Number.Byte) → Option Nat
  | [] => some 0
  | w :: ws => match magnitude w, magnitudes ws with
    | some m, some n => some (m + n)
    | _, _ => none

theorem magnitudes_ok : ∀ (ws : List (List Number.Byte)) (m : Nat), magnitudes ws = some m → ∃ xs : List ℚ,
    List.Forall₂ (fun w x => realParse ieee doubleMin w = ok (some (.num x))) ws xs ∧ (xs.map fun x => |x|).sum ≤ (1 + 1 / 2 ^ 43) * m + ws.length * (1 / 2 ^ 1074) := by
  intro ws
  induction ws with
  | nil => intro m h; cases h; exact ⟨[], .nil, by simp⟩
  | cons w ws ih =>
    intro m h
    rw [magnitudes] at h
    split at h
    · rename_i a b ha hb
      cases h
      obtain ⟨xs, h1, h2⟩ := ih b hb
      obtain ⟨v, hd, hv⟩ := magnitude_ok ha
      obtain ⟨x, hx, he⟩ := hd.parse
      refine ⟨x :: xs, .cons hx h1, ?_⟩
      rw [List.map_cons, List.sum_cons, List.length_cons]
      push_cast
      have e : (2 : ℚ) * (1 / 2 ^ 1075) = 1 / 2 ^ 1074 := by rw [pow_succ (2 : ℚ) 1074]; field_simp
      rw [e] at he
      generalize (1 : ℚ) / 2 ^ 1074 = t at *
      have h3 : |x| ≤ |x - v| + |v| := by
        have := abs_add_le (x - v) v
        rwa [sub_add_cancel] at this
      linarith
    · cases h

theorem magnitudes_append : ∀ (l l' : List (List Number.Byte)) (m m' : Nat), magnitudes l = some m → magnitudes l' = some m' → magnitudes (l ++ l') = some (m + m') := by
  intro l
  induction l with
  | nil => intro l' m m' h h'; cases h; rw [List.nil_append, h', Nat.zero_add]
  | cons w l ih =>
    intro l' m m' h h'
    rw [magnitudes] at h
    split at h
    · rename_i a b ha hb
      cases h
      rw [List.cons_append, magnitudes, ha, ih l' b m' hb h', Nat.add_assoc]
    · cases h

theorem texts0 : magnitudes (textsOf s2dTexts0) = some 185434659 ∧ s2dTexts0.length = 134 := by decide +kernel

theorem texts1 : magnitudes (textsOf s2dTexts1) = some 2161138851 ∧ s2dTexts1.length = 134 := by decide +kernel

theorem texts2 : magnitudes (textsOf s2dTexts2) = some 1987618713 ∧ s2dTexts2.length = 134 := by decide +kernel

theorem texts3 : magnitudes (textsOf s2dTexts3) = some 4535558833 ∧ s2dTexts3.length = 134 := by decide +kernel

theorem texts4 : magnitudes (textsOf s2dTexts4) = some 32592589204 ∧ s2dTexts4.length = 134 := by decide +kernel

theorem texts5 : magnitudes (textsOf s2dTexts5) = some 134 ∧ s2dTexts5.length = 134 := by decide +kernel

theorem texts6 : magnitudes (textsOf s2dTexts6) = some 366 ∧ s2dTexts6.length = 134 := by decide +kernel

theorem texts7 : magnitudes (textsOf s2dTexts7) = some 577 ∧ s2dTexts7.length = 134 := by decide +kernel

theorem s2dList_magnitudes : magnitudes s2dList = some 41462341337 :=
  magnitudes_append _ _ _ _ texts0.1 (magnitudes_append _ _ _ _ texts1.1 (magnitudes_append _ _ _ _ texts2.1 (magnitudes_append _ _ _ _ texts3.1 (magnitudes_append _ _ _ _ texts4.1 (magnitudes_append _ _ _ _ texts5.1 (magnitudes_append _ _ _ _ texts6.1 (texts7.1)))))))

theorem s2dList_length : s2dList.length = 1072 := by
  simp only [s2dList, textsOf, List.length_append, List.length_map, texts0.2, texts1.2, texts2.2, texts3.2, texts4.2, texts5.2, texts6.2, texts7.2]

/-- `(1 + u)^n` for `n u < 1`. -/
theorem pow_one_add_le (u : ℚ) (hu : 0 ≤ u) (hu1 : u ≤ 1) (n : Nat) (h : n * u < 1) : (1 + u) ^ n ≤ 1 / (1 - n * u) := by
  have h1 : 1 + (n : ℚ) * -u ≤ (1 + -u) ^ n := one_add_mul_le_pow (by linarith) n
  have h2 : (1 + u) ^ n * (1 + -u) ^ n ≤ 1 := by
    rw [← mul_pow]
    exact pow_le_one₀ (by nlinarith) (by nlinarith)
  rw [le_div_iff₀ (by linarith)]
  exact le_trans (mul_le_mul_of_nonneg_left (by linarith) (by positivity)) h2

/-! ## C188 -/

theorem error_small (ws : List (List Number.Byte)) (xs : List ℚ) (h : List.Forall₂ (fun w x => realParse ieee doubleMin w = ok (some (.num x))) ws xs) (rounds : Nat)
    (heven : rounds % 2 = 0) (hA' : (xs.map fun x => |x|).sum ≤ 41462345000) (N : Nat) (hN : N = rounds * ws.length) (hNq : (N : ℚ) = 85760000) :
    ∃ s, s2dTest ws rounds = ok (.num s) ∧ |s| < 396 := by
  have hp := pow_one_add_le (1 / 2 ^ 53) (by norm_num) (by norm_num) N (by rw [hNq]; norm_num)
  have ht : (1 : ℚ) / 2 ^ 1075 ≤ 1 / 2 ^ 60 := one_div_le_one_div_of_le (by positivity) (pow_le_pow_right₀ (by norm_num) (by omega))
  have ht0 : (0 : ℚ) ≤ 1 / 2 ^ 1075 := by positivity
  have hA0 : 0 ≤ (xs.map fun x => |x|).sum :=
    List.sum_nonneg (fun x hx => by obtain ⟨y, _, rfl⟩ := List.mem_map.mp hx; exact abs_nonneg y)
  have hp1 : (1 : ℚ) ≤ (1 + 1 / 2 ^ 53) ^ N := one_le_pow₀ (by norm_num)
  have key := C188_error_bound ws xs h rounds _ rfl N hN
  rw [hNq] at hp key
  have hdiv : (85760000 : ℚ) * (1 + 1 / 2 ^ 53) ^ N / 2 ^ 1075 = 85760000 * (1 + 1 / 2 ^ 53) ^ N * (1 / 2 ^ 1075) := by
    rw [mul_one_div]
  rw [hdiv] at key
  generalize ((1 : ℚ) + 1 / 2 ^ 53) ^ N = p at *
  generalize (xs.map fun x => |x|).sum = A at *
  generalize (1 : ℚ) / 2 ^ 1075 = t at *
  have hp2 : p ≤ 1 + 9522 / 10 ^ 12 := le_trans hp (by norm_num)
  have hb : (p - 1) * A ≤ 9522 / 10 ^ 12 * 41462345000 := mul_le_mul (by linarith) hA' hA0 (by norm_num)
  have hc : 85760000 * p * t ≤ 85760000 * 2 * (1 / 2 ^ 60) := mul_le_mul (by linarith) ht ht0 (by norm_num)
  have hd : p * A ≤ 2 * 41462345000 := mul_le_mul (by linarith) hA' hA0 (by norm_num)
  obtain ⟨s, h1, h2⟩ := key (lt_of_le_of_lt (add_le_add hd hc) (by norm_num))
  refine ⟨s, h1, ?_⟩
  rw [if_neg (by omega), sub_zero] at h2
  exact lt_of_le_of_lt (le_trans h2 (add_le_add hb hc)) (by norm_num)

/-- **C188**: the program as shipped, with 80000 rounds over its own list of 1072 texts, prints an error below 396 in its string to double test: every text is converted, and
no sum is infinite or not a number. -/
theorem C188_shipped_error : ∃ s, s2dTest s2dList 80000 = ok (.num s) ∧ |s| < 396 := by
  obtain ⟨xs, h, hA⟩ := magnitudes_ok s2dList _ s2dList_magnitudes
  have hlen := s2dList_length
  rw [hlen] at hA
  generalize s2dList = ws at *
  refine error_small ws xs h 80000 rfl ?_ (80000 * ws.length) rfl (by rw [hlen]; norm_num)
  have : (1 : ℚ) / 2 ^ 1074 ≤ 1 / 2 ^ 20 := one_div_le_one_div_of_le (by positivity) (pow_le_pow_right₀ (by norm_num) (by omega))
  generalize (1 : ℚ) / 2 ^ 1074 = t at *
  push_cast at hA
  refine le_trans hA ?_
  norm_num at this ⊢
  linarith

example : (textsOf s2dTexts0).take 9 = [text "+004", text "+005", text "+006", text "+007", text "+929", text "766", text "152", text "482", text "7379973.6624700"] ∧
    (textsOf s2dTexts7).getLast? = some (text "-9.909090909") := by decide +kernel

end Strtk.Programs.Cmp
