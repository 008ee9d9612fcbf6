import Verif.Lemmas.TailMoments
/-! The moments to fourteen digits and the polynomial inequalities for the error of the expansion near `z = 1`.  Generated by tools/gentail.py. -/
noncomputable section
namespace TicTac

/-- Lower and upper bounds of the moments. -/
def momLo : List ℚ := [43871183315741 / 50000000000000, 3962235050727 / 100000000000000, 62898165739 / 25000000000000, 18197494943 / 100000000000000, 1410547093 / 100000000000000, 114146243 / 100000000000000, 9512693 / 100000000000000, 161977 / 20000000000000, 70079 / 100000000000000, 6141 / 100000000000000, 543 / 100000000000000, 3 / 6250000000000, 1 / 25000000000000]
def momHi : List ℚ := [87742366631483 / 100000000000000, 495279381341 / 12500000000000, 251592662957 / 100000000000000, 568671717 / 3125000000000, 705273547 / 50000000000000, 28536561 / 25000000000000, 4756347 / 50000000000000, 404943 / 50000000000000, 219 / 312500000000, 3071 / 50000000000000, 17 / 3125000000000, 49 / 100000000000000, 1 / 20000000000000]

theorem mom_table : ∀ n : Fin 13, 0 ≤ momA n ∧ momLo.getD n 0 ≤ momA n * (3663561646129646 / 1000000000000000) + momB n ∧
    momA n * (3663561646129647 / 1000000000000000) + momB n ≤ momHi.getD n 0 := by decide +kernel

/-- The expansion of the program times `4m² + q²`, in `y = q²/(4m² + q²)`. -/
def tailPoly (y : ℝ) : ℝ := 359392733718761 / 100000000000 * y ^ 0 * ((1 - y) / 4) ^ 6 + 543146429291511 / 100000000000 * y ^ 1 * ((1 - y) / 4) ^ 5 + 34206675650193 / 10000000000 * y ^ 2 * ((1 - y) / 4) ^ 4 + 459646528323 / 400000000 * y ^ 3 * ((1 - y) / 4) ^ 3 + 21717174525573 / 100000000000 * y ^ 4 * ((1 - y) / 4) ^ 2 + 2189317093303 / 100000000000 * y ^ 5 * ((1 - y) / 4) ^ 1 + 1839518538037 / 2000000000000 * y ^ 6 * ((1 - y) / 4) ^ 0

/-- Lower and upper bounds of the integral times `4m² + q²`. -/
def tailLo (y : ℝ) : ℝ := 43871183315741 / 50000000000000 * y ^ 0 + 3962235050727 / 100000000000000 * y ^ 1 + 62898165739 / 25000000000000 * y ^ 2 + 18197494943 / 100000000000000 * y ^ 3 + 1410547093 / 100000000000000 * y ^ 4 + 114146243 / 100000000000000 * y ^ 5 + 9512693 / 100000000000000 * y ^ 6 + 161977 / 20000000000000 * y ^ 7 + 70079 / 100000000000000 * y ^ 8 + 6141 / 100000000000000 * y ^ 9 + 543 / 100000000000000 * y ^ 10 + 3 / 6250000000000 * y ^ 11
def tailHi (y : ℝ) : ℝ := 87742366631483 / 100000000000000 * y ^ 0 + 495279381341 / 12500000000000 * y ^ 1 + 251592662957 / 100000000000000 * y ^ 2 + 568671717 / 3125000000000 * y ^ 3 + 705273547 / 50000000000000 * y ^ 4 + 28536561 / 25000000000000 * y ^ 5 + 4756347 / 50000000000000 * y ^ 6 + 404943 / 50000000000000 * y ^ 7 + 219 / 312500000000 * y ^ 8 + 3071 / 50000000000000 * y ^ 9 + 17 / 3125000000000 * y ^ 10 + 49 / 100000000000000 * y ^ 11 + 10 / 9 * (1 / 20000000000000) * y ^ 12

theorem tail_up_0 (y : ℝ) (h0 : 0 ≤ y) (h1 : y ≤ 99 / 200) : tailPoly y ≤ (1 + 26 / 100000000000) * tailLo y := by
  have hu : 0 ≤ y - 0 := by linarith
  have hv : 0 ≤ 99 / 200 - y := by linarith
  have e : (1 + 26 / 100000000000) * tailLo y - tailPoly y = (fun u v : ℝ => 607696142299144192 / 1119172817823395556387375 * (u ^ 0 * v ^ 11) + 1329044835094404416 / 231234053269296602559375 * (u ^ 1 * v ^ 10) + 1718030243865900448784 / 63589364649056565703828125 * (u ^ 2 * v ^ 9) + 40207429255986003401177 / 529911372075471380865234375 * (u ^ 3 * v ^ 8) + 15365986354598494394715923 / 105982274415094276173046875000 * (u ^ 4 * v ^ 7) + 4297717706649426850967922377 / 21196454883018855234609375000000 * (u ^ 5 * v ^ 6) + 908009837319786497961936194623 / 4239290976603771046921875000000000 * (u ^ 6 * v ^ 5) + 28717602358346644015013663189903 / 169571639064150841876875000000000000 * (u ^ 7 * v ^ 4) + 16248951057114045505824369528825619 / 169571639064150841876875000000000000000 * (u ^ 8 * v ^ 3) + 3656535242162926581763759487528395097 / 101742983438490505126125000000000000000000 * (u ^ 9 * v ^ 2) + 159988697102243102493825124888765153169 / 20348596687698101025225000000000000000000000 * (u ^ 10 * v ^ 1) + 4193357578163074224649504140653940972197 / 5595864089116977781936875000000000000000000000 * (u ^ 11 * v ^ 0)) (y - 0) (99 / 200 - y) := by
    unfold tailPoly tailLo; ring
  have : 0 ≤ (1 + 26 / 100000000000) * tailLo y - tailPoly y := by rw [e]; positivity
  linarith

theorem tail_up_1 (y : ℝ) (h0 : 99 / 200 ≤ y) (h1 : y ≤ 297 / 400) : tailPoly y ≤ (1 + 26 / 100000000000) * tailLo y := by
  have hu : 0 ≤ y - 99 / 200 := by linarith
  have hv : 0 ≤ 297 / 400 - y := by linarith
  have e : (1 + 26 / 100000000000) * tailLo y - tailPoly y = (fun u v : ℝ => 4193357578163074224649504140653940972197 / 2732355512264149307586364746093750000000000 * (u ^ 0 * v ^ 11) + 4290177653466572555801442149871347043683 / 248395955660377209780578613281250000000000 * (u ^ 1 * v ^ 10) + 1581677170935829929957775274554462806493 / 18065160411663797074951171875000000000000 * (u ^ 2 * v ^ 9) + 8721827758608110004228403494932589983311 / 33119460754716961304077148437500000000000 * (u ^ 3 * v ^ 8) + 69019662430711626066047889969645454829657 / 132477843018867845216308593750000000000000 * (u ^ 4 * v ^ 7) + 470280367920857452438495213579641801092111 / 662389215094339226081542968750000000000000 * (u ^ 5 * v ^ 6) + 1796333643401544770140855922915017786035941 / 2649556860377356904326171875000000000000000 * (u ^ 6 * v ^ 5) + 59882655921482573403072317141580274706333 / 132477843018867845216308593750000000000000 * (u ^ 7 * v ^ 4) + 870332401384179933035071264134065772027917 / 4239290976603771046921875000000000000000000 * (u ^ 8 * v ^ 3) + 765354589804786744255798209068494539525263 / 12717872929811313140765625000000000000000000 * (u ^ 9 * v ^ 2) + 2591092015794160133913608795630300352668903 / 254357458596226262815312500000000000000000000 * (u ^ 10 * v ^ 1) + 1050303199775576232190453686865431358152421 / 1398966022279244445484218750000000000000000000 * (u ^ 11 * v ^ 0)) (y - 99 / 200) (297 / 400 - y) := by
    unfold tailPoly tailLo; ring
  have : 0 ≤ (1 + 26 / 100000000000) * tailLo y - tailPoly y := by rw [e]; positivity
  linarith

theorem tail_up_2 (y : ℝ) (h0 : 297 / 400 ≤ y) (h1 : y ≤ 693 / 800) : tailPoly y ≤ (1 + 26 / 100000000000) * tailLo y := by
  have hu : 0 ≤ y - 297 / 400 := by linarith
  have hv : 0 ≤ 693 / 800 - y := by linarith
  have e : (1 + 26 / 100000000000) * tailLo y - tailPoly y = (fun u v : ℝ => 1050303199775576232190453686865431358152421 / 683088878066037326896591186523437500000000 * (u ^ 0 * v ^ 11) + 3710727182859297259229113325562287796245623 / 248395955660377209780578613281250000000000 * (u ^ 1 * v ^ 10) + 1605080965103639588242426606517485122207803 / 24839595566037720978057861328125000000000 * (u ^ 2 * v ^ 9) + 10828323988874395983685512078644724152968153 / 66238921509433922608154296875000000000000 * (u ^ 3 * v ^ 8) + 803832125829192719252244005524920136080581 / 3010860068610632845825195312500000000000 * (u ^ 4 * v ^ 7) + 193898777794058894538689658469048115368816381 / 662389215094339226081542968750000000000000 * (u ^ 5 * v ^ 6) + 17943966520183323354922965458825235667668179 / 82798651886792403260192871093750000000000 * (u ^ 6 * v ^ 5) + 56095563046515644888471648546499994254447613 / 529911372075471380865234375000000000000000 * (u ^ 7 * v ^ 4) + 34068703279189485943069822902651382789634761 / 1059822744150942761730468750000000000000000 * (u ^ 8 * v ^ 3) + 68699331178372837158275014213269741750340543 / 12717872929811313140765625000000000000000000 * (u ^ 9 * v ^ 2) + 13616991632580552102359469113093471853252173 / 31794682324528282851914062500000000000000000 * (u ^ 10 * v ^ 1) + 72768852139460508846204973103870459696026273 / 2797932044558488890968437500000000000000000000 * (u ^ 11 * v ^ 0)) (y - 297 / 400) (693 / 800 - y) := by
    unfold tailPoly tailLo; ring
  have : 0 ≤ (1 + 26 / 100000000000) * tailLo y - tailPoly y := by rw [e]; positivity
  linarith

theorem tail_up_3 (y : ℝ) (h0 : 693 / 800 ≤ y) (h1 : y ≤ 99 / 100) : tailPoly y ≤ (1 + 26 / 100000000000) * tailLo y := by
  have hu : 0 ≤ y - 693 / 800 := by linarith
  have hv : 0 ≤ 99 / 100 - y := by linarith
  have e : (1 + 26 / 100000000000) * tailLo y - tailPoly y = (fun u v : ℝ => 72768852139460508846204973103870459696026273 / 2797932044558488890968437500000000000000000000 * (u ^ 0 * v ^ 11) + 18300885609138300436767096651496572283017581 / 127178729298113131407656250000000000000000000 * (u ^ 1 * v ^ 10) + 4066531282148616148200529301549053327543679 / 1589734116226414142595703125000000000000000 * (u ^ 2 * v ^ 9) + 2957846220327088950411046286328453570547019 / 132477843018867845216308593750000000000000 * (u ^ 3 * v ^ 8) + 8991283718289853604761473348594157046059 / 94089377144082276432037353515625000000 * (u ^ 4 * v ^ 7) + 1244449617654809508048145219679654369589167 / 5174915742924525203762054443359375000000 * (u ^ 5 * v ^ 6) + 125601727538762310567372144620434832618903 / 323432233932782825235128402709960937500 * (u ^ 6 * v ^ 5) + 6742821365926591568450483564870456181719 / 16171611696639141261756420135498046875 * (u ^ 7 * v ^ 4) + 4815015945776773606325003629711408933168 / 16171611696639141261756420135498046875 * (u ^ 8 * v ^ 3) + 6618355880744320541868440096039299141792 / 48514835089917423785269260406494140625 * (u ^ 9 * v ^ 2) + 8830485069326401377937611437627846952448 / 242574175449587118926346302032470703125 * (u ^ 10 * v ^ 1) + 11505180394118930264855487118025196378112 / 2668315929945458308189809322357177734375 * (u ^ 11 * v ^ 0)) (y - 693 / 800) (99 / 100 - y) := by
    unfold tailPoly tailLo; ring
  have : 0 ≤ (1 + 26 / 100000000000) * tailLo y - tailPoly y := by rw [e]; positivity
  linarith

theorem tail_up (y : ℝ) (h0 : 0 ≤ y) (h1 : y ≤ 99 / 100) : tailPoly y ≤ (1 + 26 / 100000000000) * tailLo y := by
  by_cases c0 : y ≤ 99 / 200
  · exact tail_up_0 y h0 c0
  by_cases c1 : y ≤ 297 / 400
  · exact tail_up_1 y (le_of_lt (not_le.1 c0)) c1
  by_cases c2 : y ≤ 693 / 800
  · exact tail_up_2 y (le_of_lt (not_le.1 c1)) c2
  exact tail_up_3 y (le_of_lt (not_le.1 c2)) h1

theorem tail_dn_0 (y : ℝ) (h0 : 0 ≤ y) (h1 : y ≤ 99 / 100) : (1 - 26 / 100000000000) * tailHi y ≤ tailPoly y := by
  have hu : 0 ≤ y - 0 := by linarith
  have hv : 0 ≤ 99 / 100 - y := by linarith
  have e : tailPoly y - (1 - 26 / 100000000000) * tailHi y = (fun u v : ℝ => 99485909499139 / 402902214416422400299455 * (u ^ 0 * v ^ 12) + 10771794079549123 / 3357518453470186669162125 * (u ^ 1 * v ^ 11) + 2462328527912348357 / 122091580126188606151350000 * (u ^ 2 * v ^ 10) + 166136321057372879573 / 2289217127366036365337812500 * (u ^ 3 * v ^ 9) + 15472616606128047181487 / 101742983438490505126125000000 * (u ^ 4 * v ^ 8) + 28002634898537810674667 / 158973411622641414259570312500 * (u ^ 5 * v ^ 7) + 137357788170318898775685743 / 1526144751577357576891875000000000 * (u ^ 6 * v ^ 6) + 10844366245879698062321569 / 203485966876981010252250000000000000 * (u ^ 7 * v ^ 5) + 15090633933459990084153423809 / 1017429834384905051261250000000000000 * (u ^ 8 * v ^ 4) + 97943387969001474139933254301667 / 1664885183538935538427500000000000000000 * (u ^ 9 * v ^ 3) + 613037724023802660683358802575263 / 13874043196157796153562500000000000000000 * (u ^ 10 * v ^ 2) + 14414645951606916422147842575594817711 / 1343007381388074667664850000000000000000000000 * (u ^ 11 * v ^ 1) + 258687720922834560882302946182300153 / 8058044288328448005989100000000000000000000000 * (u ^ 12 * v ^ 0)) (y - 0) (99 / 100 - y) := by
    unfold tailPoly tailHi; ring
  have : 0 ≤ tailPoly y - (1 - 26 / 100000000000) * tailHi y := by rw [e]; positivity
  linarith

theorem tail_dn (y : ℝ) (h0 : 0 ≤ y) (h1 : y ≤ 99 / 100) : (1 - 26 / 100000000000) * tailHi y ≤ tailPoly y := by
  exact tail_dn_0 y h0 h1

theorem tail_up_all_0 (y : ℝ) (h0 : 0 ≤ y) (h1 : y ≤ 1 / 2) : tailPoly y ≤ (1 + 34 / 100000000000) * tailLo y := by
  have hu : 0 ≤ y - 0 := by linarith
  have hv : 0 ≤ 1 / 2 - y := by linarith
  have e : (1 + 34 / 100000000000) * tailLo y - tailPoly y = (fun u v : ℝ => 192234499306743 / 305175781250000000000 * (u ^ 0 * v ^ 11) + 32854484756661627 / 4882812500000000000000 * (u ^ 1 * v ^ 10) + 156727994731895681 / 4882812500000000000000 * (u ^ 2 * v ^ 9) + 1790252480482646767 / 19531250000000000000000 * (u ^ 3 * v ^ 8) + 277190916209542463 / 1562500000000000000000 * (u ^ 4 * v ^ 7) + 19425007863211059417 / 78125000000000000000000 * (u ^ 5 * v ^ 6) + 8114218593053271999 / 31250000000000000000000 * (u ^ 6 * v ^ 5) + 62754743830455764199 / 312500000000000000000000 * (u ^ 7 * v ^ 4) + 69204216687316570367 / 625000000000000000000000 * (u ^ 8 * v ^ 3) + 405603005162062507 / 10000000000000000000000 * (u ^ 9 * v ^ 2) + 21786810068389191943 / 2500000000000000000000000 * (u ^ 10 * v ^ 1) + 2053382464131420981 / 2500000000000000000000000 * (u ^ 11 * v ^ 0)) (y - 0) (1 / 2 - y) := by
    unfold tailPoly tailLo; ring
  have : 0 ≤ (1 + 34 / 100000000000) * tailLo y - tailPoly y := by rw [e]; positivity
  linarith

theorem tail_up_all_1 (y : ℝ) (h0 : 1 / 2 ≤ y) (h1 : y ≤ 3 / 4) : tailPoly y ≤ (1 + 34 / 100000000000) * tailLo y := by
  have hu : 0 ≤ y - 1 / 2 := by linarith
  have hv : 0 ≤ 3 / 4 - y := by linarith
  have e : (1 + 34 / 100000000000) * tailLo y - tailPoly y = (fun u v : ℝ => 2053382464131420981 / 1220703125000000000000 * (u ^ 0 * v ^ 11) + 4597481124794770043 / 244140625000000000000 * (u ^ 1 * v ^ 10) + 92844153796778650811 / 976562500000000000000 * (u ^ 2 * v ^ 9) + 1392582109051256687111 / 4882812500000000000000 * (u ^ 3 * v ^ 8) + 1100992521144021935217 / 1953125000000000000000 * (u ^ 4 * v ^ 7) + 7511027359256149516773 / 9765625000000000000000 * (u ^ 5 * v ^ 6) + 28804634551020396229923 / 39062500000000000000000 * (u ^ 6 * v ^ 5) + 3870663711246518294309 / 7812500000000000000000 * (u ^ 7 * v ^ 4) + 71236492463533378515857 / 312500000000000000000000 * (u ^ 8 * v ^ 3) + 21316914475659104722591 / 312500000000000000000000 * (u ^ 9 * v ^ 2) + 14908411612834704415971 / 1250000000000000000000000 * (u ^ 10 * v ^ 1) + 1155604172604765851319 / 1250000000000000000000000 * (u ^ 11 * v ^ 0)) (y - 1 / 2) (3 / 4 - y) := by
    unfold tailPoly tailLo; ring
  have : 0 ≤ (1 + 34 / 100000000000) * tailLo y - tailPoly y := by rw [e]; positivity
  linarith

theorem tail_up_all_2 (y : ℝ) (h0 : 3 / 4 ≤ y) (h1 : y ≤ 1) : tailPoly y ≤ (1 + 34 / 100000000000) * tailLo y := by
  have hu : 0 ≤ y - 3 / 4 := by linarith
  have hv : 0 ≤ 1 - y := by linarith
  have e : (1 + 34 / 100000000000) * tailLo y - tailPoly y = (fun u v : ℝ => 1155604172604765851319 / 1250000000000000000000000 * (u ^ 0 * v ^ 11) + 10514880184470144313047 / 1250000000000000000000000 * (u ^ 1 * v ^ 10) + 10333085904747704465281 / 312500000000000000000000 * (u ^ 2 * v ^ 9) + 5734705620085384676839 / 78125000000000000000000 * (u ^ 3 * v ^ 8) + 2003567142887476217487 / 19531250000000000000000 * (u ^ 4 * v ^ 7) + 123676721809101296243 / 1220703125000000000000 * (u ^ 5 * v ^ 6) + 1107703909062766849 / 12207031250000000000 * (u ^ 6 * v ^ 5) + 6939351399410619537 / 76293945312500000000 * (u ^ 7 * v ^ 4) + 392485813771079581 / 4768371582031250000 * (u ^ 8 * v ^ 3) + 240748884118744773 / 4768371582031250000 * (u ^ 9 * v ^ 2) + 16747559286047709 / 953674316406250000 * (u ^ 10 * v ^ 1) + 3112740757858161 / 1192092895507812500 * (u ^ 11 * v ^ 0)) (y - 3 / 4) (1 - y) := by
    unfold tailPoly tailLo; ring
  have : 0 ≤ (1 + 34 / 100000000000) * tailLo y - tailPoly y := by rw [e]; positivity
  linarith

theorem tail_up_all (y : ℝ) (h0 : 0 ≤ y) (h1 : y ≤ 1) : tailPoly y ≤ (1 + 34 / 100000000000) * tailLo y := by
  by_cases c0 : y ≤ 1 / 2
  · exact tail_up_all_0 y h0 c0
  by_cases c1 : y ≤ 3 / 4
  · exact tail_up_all_1 y (le_of_lt (not_le.1 c0)) c1
  exact tail_up_all_2 y (le_of_lt (not_le.1 c1)) h1

theorem tail_dn_all_0 (y : ℝ) (h0 : 0 ≤ y) (h1 : y ≤ 1) : (1 - 34 / 100000000000) * tailHi y ≤ tailPoly y := by
  have hu : 0 ≤ y - 0 := by linarith
  have hv : 0 ≤ 1 - y := by linarith
  have e : tailPoly y - (1 - 34 / 100000000000) * tailHi y = (fun u v : ℝ => 1445314471016461 / 5000000000000000000000000 * (u ^ 0 * v ^ 12) + 1153576672827963 / 312500000000000000000000 * (u ^ 1 * v ^ 11) + 112948230370749081 / 5000000000000000000000000 * (u ^ 2 * v ^ 10) + 200224485151521919 / 2500000000000000000000000 * (u ^ 3 * v ^ 9) + 84830653249112937 / 500000000000000000000000 * (u ^ 4 * v ^ 8) + 131091373908489079 / 625000000000000000000000 * (u ^ 5 * v ^ 7) + 349724412762678013 / 2500000000000000000000000 * (u ^ 6 * v ^ 6) + 130923873394481553 / 2500000000000000000000000 * (u ^ 7 * v ^ 5) + 251025820768265743 / 5000000000000000000000000 * (u ^ 8 * v ^ 4) + 181238628604482937 / 2500000000000000000000000 * (u ^ 9 * v ^ 3) + 232011920128536531 / 5000000000000000000000000 * (u ^ 10 * v ^ 2) + 53238292178778719 / 5000000000000000000000000 * (u ^ 11 * v ^ 1) + 8137788048409 / 3000000000000000000000000 * (u ^ 12 * v ^ 0)) (y - 0) (1 - y) := by
    unfold tailPoly tailHi; ring
  have : 0 ≤ tailPoly y - (1 - 34 / 100000000000) * tailHi y := by rw [e]; positivity
  linarith

theorem tail_dn_all (y : ℝ) (h0 : 0 ≤ y) (h1 : y ≤ 1) : (1 - 34 / 100000000000) * tailHi y ≤ tailPoly y := by
  exact tail_dn_all_0 y h0 h1

theorem tail_large_0 (y : ℝ) (h0 : 199 / 200 ≤ y) (h1 : y ≤ 1) : tailPoly y ≤ (1 - 27 / 100000000000) * tailLo y := by
  have hu : 0 ≤ y - 199 / 200 := by linarith
  have hv : 0 ≤ 1 - y := by linarith
  have e : (1 - 27 / 100000000000) * tailLo y - tailPoly y = (fun u v : ℝ => 259831417731702995835365670646136762237 / 1250000000000000000000000 * (u ^ 0 * v ^ 11) + 165146707958070592167839845229547729883 / 50000000000000000000000 * (u ^ 1 * v ^ 10) + 5407852227081823844126699515848235097 / 250000000000000000000 * (u ^ 2 * v ^ 9) + 100436089729989749318661056863750819 / 1250000000000000000 * (u ^ 3 * v ^ 8) + 1198855386105133609983120542210011 / 6250000000000000 * (u ^ 4 * v ^ 7) + 195253430855061378389750353253 / 625000000000 * (u ^ 5 * v ^ 6) + 13928275486902597517454255219 / 39062500000 * (u ^ 6 * v ^ 5) + 55945879378494922429066453 / 195312500 * (u ^ 7 * v ^ 4) + 310948308126092818476728 / 1953125 * (u ^ 8 * v ^ 3) + 4565025326492110351472 / 78125 * (u ^ 9 * v ^ 2) + 39895054399895136288 / 3125 * (u ^ 10 * v ^ 1) + 157427193040258304 / 125 * (u ^ 11 * v ^ 0)) (y - 199 / 200) (1 - y) := by
    unfold tailPoly tailLo; ring
  have : 0 ≤ (1 - 27 / 100000000000) * tailLo y - tailPoly y := by rw [e]; positivity
  linarith

theorem tail_large (y : ℝ) (h0 : 199 / 200 ≤ y) (h1 : y ≤ 1) : tailPoly y ≤ (1 - 27 / 100000000000) * tailLo y := by
  exact tail_large_0 y h0 h1

end TicTac
end
