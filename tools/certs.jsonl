{"N": 115792089237316195423570985008687907853269984665640564039457584007908834671663, "ok": true, "cert": [[2657, null], [4423, null], [96557, null], [41201, null], [1627, null], [255515944373312847190720520512484175977, [[96557, 2], [41201, 2], [4423, 2], [2657, 2], [1627, 2]]], [205115282021455665897114700593932402728804164701536103180137503955397371, [[255515944373312847190720520512484175977, 2]]], [115792089237316195423570985008687907853269984665640564039457584007908834671663, [[205115282021455665897114700593932402728804164701536103180137503955397371, 2]]]]}
{"N": 115792089237316195423570985008687907852837564279074904382605163141518161494337, "ok": true, "cert": [[16699, null], [85831, null], [107361793816595537, [[85831, 2], [16699, 2]]], [120233, null], [4051, null], [59, null], [174723607534414371449, [[120233, 2], [4051, 2], [59, 2]]], [631, null], [115792089237316195423570985008687907852837564279074904382605163141518161494337, [[174723607534414371449, 2], [107361793816595537, 2], [631, 2]]]]}
{"N": 6277101735386680763835789423207666416083908700390324961279, "ok": true, "cert": [[149309, null], [379787, null], [11393611, [[379787, 2]]], [43, null], [54251, null], [2477, null], [108341181769254293, [[54251, 2], [2477, 2], [43, 2]]], [6277101735386680763835789423207666416083908700390324961279, [[108341181769254293, 2], [11393611, 2], [149309, 2]]]]}
{"N": 6277101735386680763835789423176059013767194773182842284081, "ok": true, "cert": [[3, null], [2, null], [239, null], [54623, null], [7244839476697597, [[54623, 2], [239, 2], [3, 2], [2, 2], [2, 2]]], [9564682313913860059195669, [[7244839476697597, 2]]], [5, null], [2389, null], [6277101735386680763835789423176059013767194773182842284081, [[9564682313913860059195669, 2], [2389, 2], [5, 2]]]]}
{"N": 26959946667150639794667015087019630673557916260026308143510066298881, "ok": true, "cert": [[65537, null], [641, null], [257, null], [3, null], [5, null], [2, null], [17, null], [26959946667150639794667015087019630673557916260026308143510066298881, [[65537, 2], [641, 2], [257, 2], [17, 2], [5, 2], [3, 2], [2, 11], [2, 11], [2, 11], [2, 11], [2, 11], [2, 11], [2, 11], [2, 11], [2, 11], [2, 11], [2, 11], [2, 11], [2, 11], [2, 11], [2, 11], [2, 11], [2, 11], [2, 11], [2, 11], [2, 11], [2, 11], [2, 11], [2, 11], [2, 11], [2, 11], [2, 11], [2, 11], [2, 11], [2, 11], [2, 11], [2, 11], [2, 11], [2, 11], [2, 11], [2, 11], [2, 11], [2, 11], [2, 11], [2, 11], [2, 11], [2, 11], [2, 11], [2, 11], [2, 11], [2, 11], [2, 11], [2, 11], [2, 11], [2, 11], [2, 11], [2, 11], [2, 11], [2, 11], [2, 11], [2, 11], [2, 11], [2, 11], [2, 11], [2, 11], [2, 11], [2, 11], [2, 11], [2, 11], [2, 11], [2, 11], [2, 11], [2, 11], [2, 11], [2, 11], [2, 11], [2, 11]]]]}
{"N": 115792089210356248762697446949407573530086143415290314195533631308867097853951, "ok": true, "cert": [[3769, null], [107, null], [204061199, [[3769, 2], [107, 2]]], [34282281433, [[204061199, 2]]], [197, null], [3677, null], [66417393611, [[3677, 2], [197, 2]]], [11290956913871, [[66417393611, 2]]], [774023187263532362759620327192479577272145303, [[11290956913871, 2], [34282281433, 2]]], [835945042244614951780389953367877943453916927241, [[774023187263532362759620327192479577272145303, 2]]], [115792089210356248762697446949407573530086143415290314195533631308867097853951, [[835945042244614951780389953367877943453916927241, 2]]]]}
{"N": 115792089210356248762697446949407573529996955224135760342422259061068512044369, "ok": true, "cert": [[17449, null], [38189, null], [3407, null], [104471, null], [3969899, [[104471, 2]]], [1002328039319, [[3969899, 2]]], [29, null], [311, null], [311245691, [[311, 2], [29, 2], [29, 2]]], [622491383, [[311245691, 2]]], [1201, null], [229, null], [9350987, [[1201, 2], [229, 2]]], [187019741, [[9350987, 2]]], [115792089210356248762697446949407573529996955224135760342422259061068512044369, [[1002328039319, 2], [622491383, 2], [187019741, 2], [38189, 2], [17449, 2], [3407, 2]]]]}
{"N": 6864797660130609714981900799081393217269435300143305409394463459185543183397656052122559640661454554977296311391480858037121987999716643812574028291115057151, "ok": true, "cert": [[131, null], [521, null], [858001, null], [42641, null], [17, null], [51481, null], [157, null], [31, null], [409891, null], [41, null], [37, null], [317, null], [7623851, [[317, 3], [37, 3]]], [2731, null], [53, null], [1613, null], [13, null], [5746001, [[17, 3], [13, 3], [13, 3]]], [49481, null], [308761441, [[49481, 3]]], [19, null], [1381, null], [34110701, [[1381, 3], [19, 3]]], [61681, null], [8191, null], [6864797660130609714981900799081393217269435300143305409394463459185543183397656052122559640661454554977296311391480858037121987999716643812574028291115057151, [[308761441, 3], [34110701, 3], [7623851, 3], [5746001, 3], [858001, 3], [409891, 3], [61681, 3], [51481, 3], [42641, 3], [8191, 3], [2731, 3], [1613, 3], [521, 2], [157, 3], [131, 3], [53, 3], [41, 3], [31, 3], [17, 3]]]]}
{"N": 39402006196394479212279040100143613805079739270465446667948293404245721771496870329047266088258938001861606973112319, "ok": true, "cert": [[312289, null], [8389, null], [661, null], [599, null], [513928823, [[661, 2], [599, 2]]], [53448597593, [[513928823, 2]]], [1357291859799823621, [[53448597593, 2]]], [7, null], [181, null], [881, null], [211, null], [105957871, [[881, 2], [211, 2]]], [529709925838459440593, [[105957871, 2], [181, 2], [7, 2]]], [38557, null], [19173790298027098165721053155794528970226934547887232785722672956982046098136719667167519737147526097, [[529709925838459440593, 2], [1357291859799823621, 2], [312289, 2], [38557, 2], [8389, 2]]], [39402006196394479212279040100143613805079739270465446667948293404245721771496870329047266088258938001861606973112319, [[19173790298027098165721053155794528970226934547887232785722672956982046098136719667167519737147526097, 2]]]]}
{"N": 26959946667150639794667015087019625940457807714424391721682722368061, "ok": true, "cert": [[10909, null], [11105363, [[10909, 2]]], [821796863, [[11105363, 2]]], [432621809776543, [[821796863, 2]]], [136401162692544977256234449, [[432621809776543, 2]]], [34646440928557194402992574983797, [[136401162692544977256234449, 2]]], [375503554633724504423937478103159147573209, [[34646440928557194402992574983797, 2]]], [50520606258875818707470860153287666700917696099933389351507, [[375503554633724504423937478103159147573209, 2]]], [26959946667150639794667015087019625940457807714424391721682722368061, [[50520606258875818707470860153287666700917696099933389351507, 2]]]]}
{"N": 39402006196394479212279040100143613805079739270465446667946905279627659399113263569398956308152294913554433653942643, "ok": true, "cert": [[37447, null], [8463023, [[37447, 2]]], [251, null], [248431, null], [881, null], [311, null], [9863677, [[881, 2], [311, 2]]], [37344768852931, [[9863677, 2]]], [55942463741690639, [[37344768852931, 2]]], [1059392654943455286185473617842338478315215895509773412096307, [[55942463741690639, 2], [8463023, 2], [248431, 2], [251, 2]]], [3055465788140352002733946906144561090641249606160407884365391979704929268480326390471, [[1059392654943455286185473617842338478315215895509773412096307, 2]]], [39402006196394479212279040100143613805079739270465446667946905279627659399113263569398956308152294913554433653942643, [[3055465788140352002733946906144561090641249606160407884365391979704929268480326390471, 2]]]]}
