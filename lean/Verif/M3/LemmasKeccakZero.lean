import Verif.M3.LemmasKeccakSpec

/-! The permutation of the state of zeros, to compare the specification with the published values. -/

set_option linter.dupNamespace false

namespace Verif.M3.Keccak

/-- The states between the rounds for the state of zeros. -/
def zeroTable : List (List (BitVec 64)) := [
  [0x0000000000000000, 0x0000000000000000, 0x0000000000000000, 0x0000000000000000, 0x0000000000000000, 0x0000000000000000, 0x0000000000000000, 0x0000000000000000, 0x0000000000000000, 0x0000000000000000, 0x0000000000000000, 0x0000000000000000, 0x0000000000000000, 0x0000000000000000, 0x0000000000000000, 0x0000000000000000, 0x0000000000000000, 0x0000000000000000, 0x0000000000000000, 0x0000000000000000, 0x0000000000000000, 0x0000000000000000, 0x0000000000000000, 0x0000000000000000, 0x0000000000000000],
  [0x0000000000000001, 0x0000000000000000, 0x0000000000000000, 0x0000000000000000, 0x0000000000000000, 0x0000000000000000, 0x0000000000000000, 0x0000000000000000, 0x0000000000000000, 0x0000000000000000, 0x0000000000000000, 0x0000000000000000, 0x0000000000000000, 0x0000000000000000, 0x0000000000000000, 0x0000000000000000, 0x0000000000000000, 0x0000000000000000, 0x0000000000000000, 0x0000000000000000, 0x0000000000000000, 0x0000000000000000, 0x0000000000000000, 0x0000000000000000, 0x0000000000000000],
  [0x0000000000008083, 0x0000100000000000, 0x0000000000008000, 0x0000000000000001, 0x0000100000008000, 0x0000000000000000, 0x0000200000200000, 0x0000000000000000, 0x0000200000000000, 0x0000000000200000, 0x0000000000000002, 0x0000000000000200, 0x0000000000000000, 0x0000000000000202, 0x0000000000000000, 0x0000000010000400, 0x0000000000000000, 0x0000000000000400, 0x0000000010000000, 0x0000000000000000, 0x0000010000000000, 0x0000000000000000, 0x0000010000000004, 0x0000000000000000, 0x0000000000000004],
  [0x8030500001E0840C, 0x38CA983082300106, 0x08B0340041C14101, 0x2002783081A00483, 0x10488C0040D14100, 0x00049840D3042220, 0x11932210B0700202, 0x40038E20070020F0, 0x31953040D0600010, 0x60030C30241400C2, 0x0000A50434031950, 0x003E0038090A8080, 0xC400828E0C100043, 0x0022263021081812, 0xC41C018A18108081, 0x01840C580E382590, 0x3E08505001060000, 0x040C0061063A6584, 0x39801C4809030010, 0x0A08402100074184, 0x80859C8008192199, 0xC700080080E020E2, 0x008584804017321C, 0x4100180008E801A1, 0x06000C00C0063266],
  [0x0838573A4DEB6243, 0xCF57A0C778692494, 0x558A7A103DE1A9F7, 0x7EBF8BCAA7384087, 0xC20E7C2F247F1FC3, 0x8B4B752FE1FF3DD4, 0xCAF94E2EA308A3DE, 0x84157265ED62C980, 0x95EB44CDB62A1F93, 0x10401CDB131F356A, 0x43149AE4F34CAE4E, 0xC7FF1E37F2A46DF1, 0x9082BCD5A1256E14, 0x57C528940923D229, 0xD68102405F743186, 0xDD83725682CE30AD, 0xA99560E9A64817A1, 0xBAB5EBD7D1623C17, 0x9C1ED728FDC103AD, 0xE8A581BE707CB952, 0x81BC65422742B355, 0x9C66D82B94503AA2, 0x4F75A9DE463907D4, 0xE90EB8A4080A858F, 0x6542BC007F6BD7A3],
  [0x6A00840802752A6F, 0xF9A9C3AB00C9C931, 0x6DB98725571F1604, 0x96BA275BA7474A93, 0x9B5E7A3FEEB7E41E, 0x73FE33C9B1038C36, 0x70E8B5D763274728, 0x0FE03A842F22AFCB, 0xD95C0A4EC94AD619, 0xE57A1A2BB2AE09C2, 0x2728E4F2B7AEEBE8, 0xA81EDBEB54D20FE1, 0x7AC22599684B0182, 0xC17E6A6AB6526EB1, 0xA1C3CEE067AB9F52, 0xB8E36F84D019B15F, 0x1CF47F1F04738AD9, 0xF377844620F2D499, 0x105A64A116516B0E, 0x965393CA1B42F1DB, 0x1C2C849D3FD29C1F, 0xAB89B3623F5F6964, 0x916D0713D86ACC2A, 0xE5DC85FFAD78D9B0, 0x650759748DF5EFE9],
  [0x43E30B96FF110A58, 0xD642C7DF22B4173C, 0xBFD660DFE2E0051D, 0xA303B734F55677E6, 0x37C05E405B01AF0C, 0x0B5033314F45C5CB, 0x44F0FBF5606F647A, 0x34FE5A6214181ED1, 0xB42ABC5DE738DDD5, 0x7A8E099FE258E5D8, 0x2D6CBEB27C4BC219, 0xA58159B967A3AD93, 0xA4036D7EAF457157, 0x5F252E8E367F3DC8, 0x5E8F6AD5D330526E, 0x4FCB128386812F6E, 0x02C154103BD90DD0, 0x375463E874AF271C, 0x1CEE752EDB4B48F6, 0x36E67B423707DCB0, 0xF36BA8B04378F57A, 0xCFCD9CECD3ADE3D5, 0x7FC73C7B61494B4C, 0xB913D9D348A8E89A, 0x1EDCA3008E4023A2],
  [0x0C77F40134A70CBC, 0x6F650CBFFC57AB01, 0x6964C6213CD3202D, 0xF5841DB03D841837, 0xA7158BB1A7922376, 0x42B502EFF3FCE7DF, 0xA42F64E793328D4F, 0x5640794D9B8E0201, 0x2ACF091A0C121018, 0xE7C314743C763A96, 0x179B677365470E31, 0x28BB4A3EA45041A4, 0x8BACDAC06316344C, 0x6989C2111A451228, 0x14BC213555DCB238, 0xAF39326EB3D059F6, 0x213D3C0C7D694B60, 0x3874EBC3CF5C4AEF, 0xD809CA879D35DA1C, 0x41AD501B5EAA2C21, 0x2727F7E1D04B5609, 0x4F40BFBF5114B70E, 0x87ED62A9C0E907DB, 0xEFD2F940CF583917, 0x675AC1B705F06E75],
  [0xE71990F66E5C3199, 0x9815A7FEFC970812, 0x7ADEB6308D077A89, 0x1BCF81EC65528647, 0xFB3F99D0C00B9D77, 0x9DEBE90720187A5E, 0x90D8CCBB6E0C2505, 0x71FA1D117D2F0D2B, 0x7E2D04CC17121756, 0xC31E4540D69F88C9, 0xD0316755555CEEC9, 0x5DCD9AA3FCDAD534, 0x99B4D176E93E4C6C, 0x2A1C42A54F48B263, 0x439EB6C088B33BB8, 0x3DE51A3100441002, 0x0092FD96A29FB9CA, 0x641E17838270A7AF, 0xC09F6D8491B94FE3, 0xDB137CC98C3C8239, 0xAD3BEEC10F39B07F, 0x6B62B259D8FF954C, 0x965F3F9B90B4BA79, 0x5E28C4CE78BD2190, 0x22D0D89CAD79A8AE],
  [0x309632A97CED9CE8, 0x96CCE37672278288, 0xB8B4102D555463A0, 0x781CB76C1B390AF6, 0x5EFE9079FBD06374, 0x8C004295C6F66CEA, 0x7063B2FD56E7E2E5, 0x5C202896127A3201, 0xDE117F77F405D44B, 0x93350E8D9591BC9E, 0x4735C6634EA08AA2, 0x479DABB00FD1751D, 0xD06CFD3AB48C6998, 0xE4C33C7972E95E5C, 0x525049F077812BC0, 0x31A6E97CCAE2238D, 0x43976056B7E1952D, 0x4A71A7F66478DD99, 0x2ADEF1F0F476BC2F, 0xE9231008AF083F0C, 0xF19D1873BE49DCA9, 0xF7CC92E1C5618E18, 0x3ABA6FB87AAD63AA, 0x73F3B6A47154402F, 0x4577F0CB2CCB722A],
  [0x31CBB7F055D0EFC0, 0xE4B25C70DDC208D1, 0x9DA2F29054CE16EE, 0x7E8DB0B9132D1F74, 0xB563450ECB53CAE8, 0x0C639E6D4DBB1C52, 0x33386E70B4EDFAE2, 0xD14705C13C413B26, 0x8FB3A1C9623230F1, 0x928AC03BB01EB0A4, 0x1A235D324D3E8A10, 0x23B9113DC331409E, 0x79C57354BD39DEBC, 0xF068BDE5CF48F1B5, 0x5B22DD2D64FEC38F, 0x759959B043B15E3E, 0x9D7E94CA55DB4480, 0x968DA580DB523741, 0xA68326239C1E7D24, 0xB534D89DF4EE2434, 0x65869F220F62E42E, 0x28FEDC4EAD93FED0, 0xBB6D3C3549DA2B97, 0x61089150769DA6CF, 0x18B378B6EEEC04B1],
  [0x736D2C1D55C4EF73, 0x2E734B02CE704378, 0xBFAF17A701E92E36, 0x5C9B10C4952FD875, 0xCDC8E10F6BA13C50, 0xF5F58FA9FC4545D6, 0xF17D3C1327115FEF, 0xE4AF9F9F755C1079, 0x5A19D348EBBBB880, 0xA4E4FC5A17F63732, 0xE14DA812846248AF, 0xD3376CB3ECEC921B, 0x660E9235B4DC7602, 0xC4E603913394EB11, 0xD31CFCDCD9C4CDB2, 0xA164D352B18499C4, 0x82F35EE1F69F9F8E, 0x3660C07BAD4B60AF, 0x69DE925622C194C6, 0xAAD25DD9C221C271, 0x04CAE3E00B8C4D68, 0xA717F1200B3B94B2, 0x31A0E879E2535099, 0x5DEFAFFE64A1E6A4, 0x50B9404AEDB0BA8E],
  [0x4089B1D2EF5D3A26, 0x8409F6C9BE239ECB, 0x12657D5A4568EAD5, 0x4D9F3E32387E66D3, 0x3BE7F6680BB1C847, 0x61ED7FB0CE6CA6AF, 0x3671348A3FBD6487, 0x81E9F633F01DCF03, 0xAB5EEFA38E5546D9, 0x8298D4E430062494, 0x3229E84A8E1704C2, 0x56F221867A1B3140, 0xDB7043CF08757BB2, 0x52DE6DE69935B888, 0x98A1C2D38194EDA1, 0x9AF85D4549FB53C7, 0x667E09DE6B59E740, 0xC08877B3D1A7A9F3, 0x5DA108D19209739F, 0xE0E096FFE4FF71EA, 0x77BADAFBFD43D602, 0x50A13329B93C785F, 0xF8AE145ADFFBE076, 0x366D5164BB8F0BB5, 0x438298AA08F16A54],
  [0x648DE89C6833C102, 0x656C92D6905C3423, 0x29F78BA152939175, 0x915F4042BE658083, 0x1EF11C5578706C33, 0x1322254ABE46649E, 0x7AA01437721057C0, 0xA1FFA1E15FF0BD68, 0xFAF58B3ABF5862DF, 0xB22B9AF8DF7D5FE7, 0x4E6245814643330B, 0x02C931B528B695B9, 0x694B851D604BFA01, 0x091010D55FA046CA, 0x1ACEC2CDA2B1C6C6, 0x329A908710CD5A85, 0xA89186E775F2FB74, 0xEE1B3818D5A83825, 0x0212DA229E198439, 0x45428A665086AC41, 0xD7F5DBEA9ADC49AD, 0x752F2FEC3448E9B2, 0x08360ADFB6DB369D, 0xEE429201D6040138, 0x3C6534877469885F],
  [0xF204AB825EC1B98C, 0x032132932ED2960E, 0xD2E894A105CE76B0, 0x75DA76BD87D37A73, 0x8C6C05A408AFC4BA, 0xAE399B7B6C84633D, 0xA8EFB92313AC7E44, 0x83371DD98C8B09F1, 0x7CF0F6DDAF592EE4, 0x8AAD4677926B6A65, 0xF42645F1AEB80189, 0x41FF2CBC6C803FDD, 0x88669871E9407470, 0xE5BBDDF2601EA85B, 0x77129C370664D096, 0x38F5DE3ED1CBF84F, 0x99CEDBF1933437F0, 0xDE74AEB20A95DB03, 0xFA2D09F00F8B19BE, 0x04754B7B9FAEFF7B, 0xB3606DBE9DB6C471, 0x31B09E98DF7DB202, 0xBE340816F1A99ED0, 0x1EA140C98AB9FAEF, 0x9D52CDC98B2A671A],
  [0x06EE364E771B6BCF, 0xE658FEAA402F4BD5, 0xD9C51E50969AAB69, 0x9473996FE1BB4CEB, 0xF51CB0626DA6F085, 0xD2EA3CAC414EB63B, 0xF55FD4DDBF081E7D, 0xF666C3286F380B1D, 0xC9E47EBE6F50EFB2, 0xD19DF82730EA16B5, 0x03FB7294D1438D9B, 0x40B5BB60943D81FE, 0x65DEE655C35A4195, 0x53E3C5F2892E6BDB, 0x908C33B016575E0B, 0xF135E2A8960F74E2, 0x4C225DEA370A687D, 0x46230E694915F13E, 0x11C0069F4D346280, 0x50B4AD11E821C365, 0xA027D4E0E1CD84DA, 0x29FF28D8DA171496, 0xE5800698CB3AE5B5, 0x637658693C47003F, 0x8CBCFD35E82D3301],
  [0x0294D0853009A2E9, 0x6D4B92A0AFD4A76B, 0x86A9931DBBBE2820, 0x5C3CE9B0EA86020E, 0x322C45CC79B07A6C, 0x2DFCA2B3CA5EDA71, 0x8CA51C558E7B125F, 0x780C883422DEA4D0, 0x3CEFE3BF645DC61F, 0xC54F3E2EF42A032E, 0x7E1BA84748E80BEE, 0xC777B862349466AE, 0x48EDAC5C5F026F97, 0x8E5C9DB63E29F72A, 0xDC8E9AD663EB67F4, 0xC3D4C4C0A4002291, 0x6CDAF1C7E7DDF7C0, 0x70433FD50A2FCA56, 0x197659FF2EDCC466, 0xCF709311541F6F05, 0x0189C40775351DCB, 0x39F99B067422B547, 0x747A4CE4EBD89471, 0x2BD80F68CC4E6008, 0xC0C81D74EDB1B855],
  [0x5D350F71494FC8F7, 0xE37BF573D8AAFE2D, 0x26C80C388310B9ED, 0xA284DF955F5574B8, 0x3807BEB7E976FCA5, 0x2F3B2AD03FBA7FB4, 0xB6EA17C2A22BCB5E, 0x8E03BDC59CF78585, 0x982733E2D63B636A, 0x7734677D193A2578, 0x3525810E4EC2258F, 0xF1D6DFC015C6D99D, 0xE264ABBDDCF60D8E, 0x3CE653F16DC02838, 0x87BCB30FE85BD280, 0x9C4E438B1642898E, 0x10C59ECBC76705E4, 0x6FB9736051442CC0, 0x03C9B4BF3AF2DC5D, 0x84501B4167D1303F, 0x95407746B76FA5EE, 0xE9E1987C2EF60A70, 0x5FF558F3797F4C78, 0x2E9689056E4699B8, 0x70702CD96A9E15BB],
  [0xFBDF32A8511A215A, 0x077CC8C29C4070D1, 0xA1D7456DD43B2098, 0x628B689B07200E95, 0x67A8FA7CCAFB6FCC, 0x4BC8B925DB11FC4E, 0x795330566EFD965C, 0x12E5367BA3EC4777, 0x6256066085A1C509, 0x9A956CBBB31FA973, 0x91282D2C07D3C3EA, 0x55C1963AD365F063, 0x471AB241A976B335, 0x8099B9E1F6F6E869, 0x321A2CFBB72874A4, 0xF35ACBBFB66C85CA, 0x56B6B30B89E00255, 0x84B0356A433BF9A8, 0x853D1F0E8D821215, 0x508C1B026DAFDC95, 0x7345AE61EB7C80A2, 0x87CCC9784DD9D4BF, 0x3A624359F6A8B2B5, 0x6DA5463417CE143F, 0xC801EFF982630994],
  [0x599D6EF52FD9AE41, 0xBF34C0D029D604E5, 0x088D5A13BFC74406, 0xFC80D28CC5CC542E, 0x3BE9B37A46DFA823, 0x8BF1357228F2736E, 0x66C66703BB4D90A6, 0xDF7213B7F0A141C9, 0xB409A8CA23C781EF, 0xA627237129EEE7A1, 0x62E2CAFA15D2E5B2, 0x720FEDE69EF73316, 0x33DB8BAEAECB6F23, 0x5211152025D6CFFA, 0x347937F914E65553, 0x5CE481E8D139A791, 0x9330BDDE8CA5F7D9, 0x10EE357FE5674585, 0x8ED9BDD71948545E, 0xCD893F7ADABABC47, 0xA20E907479EB38FC, 0x63076CB5F51FCD4B, 0xC1932A104F10527A, 0x7C5FB2E3E371AEF9, 0x9124FF3F29C7839C],
  [0x1A1AD63EA6DE94CD, 0x76F7142D14DA9BFC, 0xA59D6CD06EB2AC2E, 0xE3B85E2E2FCCB614, 0xC36E991C1A383054, 0x689CBC39B01C0CB9, 0x7A0765A0CD8D0B02, 0x8B60D78ABFAE9861, 0x35F1F6FE72E0A82F, 0x8F4EEFF944E0C2D4, 0x632B5576588A026D, 0x2B12597BAF864E64, 0x555EB1D169FA7808, 0x6C5D7FD109030BD9, 0x05EC69B93EE6CF97, 0x1852407BDA60F6DC, 0xAB561F9C9BE28B10, 0xABFE34CD40BB334A, 0x371AB1A61EFDCD8A, 0x58A7AC24EC3FFE99, 0xAA96C5DA7975161A, 0x21B79A41E0BC679B, 0xA8FC47E37729343D, 0x5DECAA3CDBD5C36E, 0x4B60687E620AE2B4],
  [0xCB967722D7E71945, 0x8E72C3B2DB12A66F, 0xEFF0AAC9862E6863, 0xCBCFE6FA8917F50F, 0xF0388AED43035577, 0x76C4EBD02ADAC11A, 0x88F1ABD844D153FD, 0x093CA1652DEF39A7, 0xAFBD5EAFAA200412, 0x3CB75A7D2F1410E1, 0x5BBCB96CFEDE2E86, 0xEDB9F9068BF73FEF, 0xF29EE305774F5D41, 0xDF8594CB00C06448, 0xB22A75014D2FBB08, 0x96CF2F872C22D061, 0x50BCAC8B9823C48C, 0xCED2C9104A8BC9A6, 0x1064930F71891B9D, 0x6A81CA651589B15E, 0xA256C27254A4EAA6, 0xF79BABACBA12D714, 0xA980D201AECC693B, 0xCB631A23ADCA9452, 0xDBDB6EE4E7362DC1],
  [0x1DD2DA9769DA011F, 0x3E2C73CC1842B6EE, 0x11ACB1EB1AF15940, 0xDACF89EA70FDDB42, 0x76CD1ADA7BDDB391, 0x3329889348E3611E, 0x79822E30740F8A94, 0x274F2636A613DACD, 0x9B74448952711318, 0x841DE7CDC8F8BA3D, 0xF129D553258AC6C9, 0x2ADE13FD70A45485, 0x843EA2B8AFE2F08B, 0xDEF7504FF47BD92E, 0xBFC5AE08ED82CF6B, 0x604B94BA87023FFA, 0x55660CE1001CC5F9, 0x7E78EA0CAEAF0B0F, 0x084F23E7133A9197, 0x5C0794EBAA3E4DFD, 0xB09F4BD1D370E12C, 0x50A2A1D79F1EF2B3, 0x2BA8D5E7DB313E6A, 0xCC0258A30644E223, 0x0B96B2D8CB9B1E79],
  [0x0E2E4980D944DA77, 0x03C4DFA24420069F, 0x4247F8944D4AE7FE, 0x602C35AFFE556148, 0xD8F2B86D8510572F, 0x04A77BFA126FC093, 0x3DDEAD3D8C1401B7, 0x0EA0DDC0D9366302, 0x262012B5083C91AC, 0xE7FB7B40B7E90583, 0xFFB9FC9A0F77452E, 0x76004EA89B563E26, 0xD3D0C5789E1909A3, 0x16E2AA8036B5013D, 0xE249AEB39C95D7DB, 0x58C5F58B0B1E40CE, 0xE1F0B375845FBD47, 0x0D7175255383FC27, 0xF235E528401D5007, 0xC52E05CCF15F628F, 0x73CCA4AE07DA389D, 0xD6A59CD027A68607, 0x867EDB7567FC04C7, 0x9D2FE354084DD32A, 0xCADBAB8C23A95C88],
  [0xF1258F7940E1DDE7, 0x84D5CCF933C0478A, 0xD598261EA65AA9EE, 0xBD1547306F80494D, 0x8B284E056253D057, 0xFF97A42D7F8E6FD4, 0x90FEE5A0A44647C4, 0x8C5BDA0CD6192E76, 0xAD30A6F71B19059C, 0x30935AB7D08FFC64, 0xEB5AA93F2317D635, 0xA9A6E6260D712103, 0x81A57C16DBCF555F, 0x43B831CD0347C826, 0x01F22F1A11A5569F, 0x05E5635A21D9AE61, 0x64BEFEF28CC970F2, 0x613670957BC46611, 0xB87C5A554FD00ECB, 0x8C3EE88A1CCF32C8, 0x940C7922AE3A2614, 0x1841F924A2C509E4, 0x16F53526E70465C2, 0x75F644E97F30A13B, 0xEAF1FF7B5CECA249]]

def zeroState (n : Nat) : Mat (BitVec 64) := fun i => ((zeroTable[n]?.getD [])[i.val]?).getD 0

set_option maxRecDepth 100000 in
theorem zero_step : ∀ n : Fin 24, ∀ i : Fin 25, (gather (zeroState n.val) n).stateOut i = zeroState (n.val + 1) i := by
  decide +kernel

theorem zero_before : ∀ n ≤ 24, before (fun _ => 0) n = zeroState n
  | 0, _ => by
    funext i
    revert i
    decide +kernel
  | n + 1, h => by
    rw [before, dif_pos (by omega), zero_before n (by omega)]
    exact funext fun i => zero_step ⟨n, by omega⟩ i

end Verif.M3.Keccak
