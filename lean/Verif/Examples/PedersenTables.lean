/-!
# The constants of the example pedersen_merkle

Taken over by a script from `crypto/stark/examples/pedersen_merkle/pedersen_points.rs` and `periodic_columns.rs`, as integers below the modulus.
-/

namespace OpenZKP
namespace Examples
namespace Pedersen

/-- `PEDERSEN_POINTS` — pedersen_points.rs:33-2058 -/
def POINTS : List (Nat × Nat) := [
    (0x049ee3eba8c1600700ee1b87eb599f16716b0b1022947733551fde4050ca6804, 0x03ca0cfe4b3bc6ddf346d49d06ea0ed34e621062c0e056c1d0405d266e10268a),
    (0x01ef15c18599971b7beced415a40f0c7deacfd9b0d1819e03d723d8bc943cfca, 0x005668060aa49730b7be4801df46ec62de53ecd11abe43a32873000c36e8dc1f),
    (0x0234287dcbaffe7f969c748655fca9e58fa8120b6d56eb0c1080d17957ebe47b, 0x03b056f100f96fb21e889527d41f4e39940135dd7a6c94cc6ed0268ee89e5615),
    (0x04fa56f376c83db33f9dab2656558f3399099ec1de5e3018b7a6932dba8aa378, 0x03fa0984c931c9e38113e0c0e47e4401562761f92a7a23b45168f4e80ff5b54d),
    (0x04ba4cc166be8dec764910f75b45f74b40c690c74709e90f3aa372f0bd2d6997, 0x0040301cf5c1751f4b971e46c4ede85fcac5c59a5ce5ae7c48151f27b24b219c),
    (0x054302dcb0e6cc1c6e44cca8f61a63bb2ca65048d53fb325d36ff12c49a58202, 0x01b77b3e37d13504b348046268d8ae25ce98ad783c25561a879dcc77e99c2426),
    (0x00bce48a9bf1ba2a868ccb5ec7a281b4adfb35f880a2217d3efc41fa17ec8430, 0x00436e8dd6339b88207b24aeb39c4497e4cecb1508e26706bd72c5450d7e362d),
    (0x06005e128fd5a27b749a30fa56766ec34958d2116a479828ffdf30ffa22a8991, 0x012158816d08f33bf1c2895eec0b5df2a4bdd2281349af68184834092e41af8f),
    (0x01c06a16f6f297e8d315f6b7ce5ed8b6cc3591b302d4563be99f26f78ce8280c, 0x03db714410aebfd11faca0a7575258d78b8f1c546666c923aa420e75af637975),
    (0x07bcee06abaa11251a294b041fc21102b1b60bb2dde33a164e9c246dec7de24c, 0x016003366f985bef69b3b7ef9112f0dd7256f1501f8aa3e525d0f72de5885a32),
    (0x02ccd344949a471541296e01e27a2b1edae8d3b8ace42a6e4e2a49ef62ffb9b4, 0x030e28f3a7b4c218e473fed409187b45f884b6f35cef64188bfb6c22ffac852a),
    (0x035b6b70b29b725bdd4abfaa9016424455fef75cf5db8ac105349c22a6cf0c79, 0x026257545e6c40ce862da7092d0078574b354960625f899bb0459c5fb457b040),
    (0x0419fb89cf8fef3182ea87e8ea0dbdf2952abe24d8d08b6496ec3507982b479a, 0x0247a42dfb62d0a43d4b26c46dbd71f883461bc434d879bdd9dbde3e7d915f05),
    (0x052c984e04f4e570d5eb7cc75e19adfbe8ca1ccab463fbb8f46292bd098b206f, 0x0360e38b0fd0d250338b69f0bfe3e0958dd974ec606eab7033b8d46f3c0f22bb),
    (0x0505192fc48d0e75ee4186e8469975db748ee5796f175a273ba80c0d38a620ba, 0x0125867a44b1e4b3b4dddea3aa770e8c1e830e4dcd0473ee4bf803c685d463da),
    (0x06980f6d1c471c17c3cb85791a341cd30075a8ea156338f19a6f5cb63d8b7f99, 0x03c41b089b6e2167f75d2f59b72e1554ca1e5c2c1021758a4164da3e238281af),
    (0x050f36f86c52a6f5da5522070dad22fb4c6b77029834e38b99bcc92459fbab6d, 0x013ea79067ac7c0656df40ad505ef4d22cac5999360ffc826a838d579b0a8595),
    (0x008c13fa68b6d0f70cca82f0c5f289b9bd03c84811511731f3e8dfa1bbb29f0e, 0x0191ab505d18437e11a3fb027278ddbd11d8670ed6eea9c80e2198519fd7d186),
    (0x040b996abea32ecc5d88a8a15b715ae699ce0df57972c1fd01c9d6d39b3fafa8, 0x02e44cba79a2c3f7d34b4f4690cc4ffc36a9b7c99426ad6d9461e96cdbfdfb5e),
    (0x05514394948a2ae3db72a0181da6ca17c3e87d1110b924639cc1ddca754ab07e, 0x01cb53cabacb8d1d0a010c76eef8faa3e4fb744f41e6f821cc89b729ef64dee5),
    (0x0066c51e2f13ad12f51c673c4521906c9b5a586b9c30057a71f096e4ef47f362, 0x02eeee7e746fa29f0e7eebf4504d267074dfe9e1aefd25bd691cd4f325f4ea31),
    (0x0066b81d1f23915d68b777783226cebb960c0b0b914d553ea6eb3f3c00675a7c, 0x039a226a5b073b9aca14c3d17c1e90c83725a7ca526d94469c3100dcdb5b1ae0),
    (0x03fed4bd782818b888391c90ffb40f2e9059d9cd62bd92e348946623ab80391b, 0x0159c712de4c72d908997fa30b00afdc0737dae50dd939400bc864c8f4bf9b84),
    (0x005f011d4514ff968ecdac056db402c967e700b8e144070de05bca7f7f831b41, 0x00a4ff1dccf68b738a15f729ad670f8a2711580d592e9d87161aefe5fad689c3),
    (0x06c81c707ecc44b5f60297ec08d2d585513c1ba022dd93af66a1dbacb162a3f3, 0x02500bc5cbc7982049226268e99f1523a33b2d6c7a95e1cdf3f91760aea2b409),
    (0x0737b2a877624e251d8828c4ce63b03225d0d0434f3e96ba45114c148b54f0e7, 0x004f9a4f03a271f0398695280c24c003400c42138f6bbf844bf8e1a7bfc4df6d),
    (0x06db17053a898be46f09f82fff339843705e22ac07eaaaa808d10011250b36b2, 0x011549267c9e3d55ce2de5f56e3b95900ec3bc0ec9e1680d76ef9a77d04cd73c),
    (0x043717d6a04d53d15eaaccff4d1e23b573a5221defe1d07f645c14281cfc5b1f, 0x01cbfa4c7826b17093c7d829bf596ca0e6a6bb4c7185d34339d592c7ab81b3f3),
    (0x028ad05e63b9994b33f6a30c42d99c0158c1687cb1e0563d91063fc6e5a7ef14, 0x036b54d58a177e83df2021889374503c6a57e29d5506b487970f1db55522f3ac),
    (0x05ce51c640cbd74d161baa97b0a88d81d2d38d08a2d706c01b6327782511e5a0, 0x0308ebac762bb3c9c496ac9f97c942fea6d7bb69fe4e8e0369aab707a64d5ff6),
    (0x0333da15832f1efb8f00b29a3ad48e92046a4509950ca6637ea56c2fc6df5aaa, 0x0035c6cc56fc971900f3476d154bbdc0157939b09477a2f4f48cc4a97415b8dc),
    (0x04fc483e8c2c31fcbd57ac8b7ab33c3c42152c55618c19d462982efbd2898196, 0x0182719dbd4ab3f5c48c115d2756c5fa15839b7f40b358c4248d2a51d01a48b6),
    (0x04f52ddf20586084da000538b3d0e80645cde96607ebda93e46a853d8c7c25da, 0x028b7b5ae215b517271b472bfee0e678480768a8286d90a6b8305930ea6e12ee),
    (0x0356f8a9ad7f4b6da51943f2d793c48392826f19696e1054ebfdda9b38d30b8e, 0x01e872e137163e4a2c3c789143e37c1ac3df5d5bc46afc9fa323efc696682477),
    (0x04ba01fbca52020688f49e696ff65ee82ebcbf2c04c61a28c807e7f417b7ada6, 0x02acb6d4b9f010aea5150a3d7c22643486441364d203d9c3f310e6ee691ad7fb),
    (0x050de424fa35e2ec678f93870c4f211688a74e07a48d02d8d8eac283aacc000c, 0x0341096affbd3c3fad8d51af3026d737021d0205b22c26c9d920d34de1e20566),
    (0x04ca6a40cabb36577c674cedab13a5db4f78c72ee460190507393415b408b84b, 0x036794b40a90daedd59a2e5c2e55b385ea405744b3c3bac0611454ed7a5c34f3),
    (0x033ee591b4f2c2abc67936f1e270b4352b19dec400221e2ed9651b09f18a2195, 0x03b315af147a849413173153c25780f31424bdbbcc3a9506cdd136269c29f8fe),
    (0x040311da01f8933aee8139aa0a8654d61e28f01162f92459fb9c10d13bb0318f, 0x00856de0a27349b1247a133416a9da8f21b2969e51c896a48321a53b6baeafa0),
    (0x00d98c224c71a21ef7b4a0c5d77356c45a214cf39edcdf52e21b70e3bdf898a0, 0x01a5eb0162bcb42382468b6fc9507bcc46d62e39bf7ad6458daed1ac983d7c3e),
    (0x02e0c4cea248e9d049a1e2c26af44db60bdbd436fc6dead7d90a17f21893632e, 0x0265b614119d1ae3a74ad56960612b3e4a3ec8aaf6707931ee9f87562fc468c7),
    (0x04d0925df9a53d2308aea0f6a2d4aacefa375421c1116012eec070d16182a4f6, 0x03b8ea110c1f8b5eb9670e79f0c5cc80694a2fe620a6054959d4228539565d6d),
    (0x00e107e80282aff26560afaf79602070b2272f89261970d79fa2db98180aa535, 0x0180fbe129dd75c768a951c25aa5c8c01028dd16dfac47413218f938f7d13f69),
    (0x030a8d24cd7001ddc8adbbf6b772c6f423296f5c30783c96294726b25208c21f, 0x02f0c69054ab9c229c9328eefa5b15e3c1e4f2133f9b6059d0160932726e2f2c),
    (0x0040551f0b3a4d637a983c00ea77d4c60b234848e7b62e2e9abebc6b184420e5, 0x016096b730a8507f1bea5f401cd88bb96419230b1211a94fc08ab91ec055f297),
    (0x06f1e4e8e78a47cf6f5073a0ee088e7d5e743219367ed08ddc5b25547251fee9, 0x028691d8849563ce726c289886aa14f5742c960d519cc50a6977d7bed0300479),
    (0x0236f560c5c265b3a98a7e77e9aeaa6eb22670f16a777601634b3c2664af905b, 0x0103f9a7a48965ef77725248177ad49f5ec624d7996199d5c960a0e8d9f95027),
    (0x0321bd2283c3b6221c9994ad20d726b6b6a82369de2ddbbd3e2b066d04c25aa7, 0x002c8027d1efee0ef615feae103be7925a3f0e6698753a706e9b8f433746c782),
    (0x05de9ddd02c14a6cf6e085c0fabaf5020823507dcf0461b98ac8ec5fab7af1dd, 0x02ec56e42f07e33ae66d8e7b6678a453e575086e644f2499d23dfaeb2b27fb08),
    (0x05aa496a9db3764203ccb6d5090a323b9d076ac57166075716c7c07b8bc71999, 0x00d7ef9b60a05741c4f50f6e528b7b1f7495187c2b3155cadf0488645fcf1359),
    (0x0770be9f6143d5add961cdf8bc8876a939d3e32d276043c2372f94ff51490c4a, 0x01a0e47db58deb5751b3bb4468e0941632c51709df34a72446c694c4cda328d6),
    (0x01d9435cac0b02d9db1097ceadb4588cda4a600ac358358b4b97225be2cd4788, 0x026b61887e91537286942ed48e1d757f74fb1644d875f535d9f45571644df560),
    (0x0224bb6447e8c9641ad46fc4efb726ac9450680a96c279af4daf56e28e1a82d4, 0x00639eebb0e7b477061bc64fcd37d49d4ae89771a53e21611481ffe26806d893),
    (0x03911e4e67a894627b6c39bf1acbbdecd83086177a2b19c81ffaa26857d85aed, 0x02f067fffc2a4315a8bb60370ff065bd33b77fa7f47af09fad18d98b9742a226),
    (0x02fbf07fc43282a8826764403f48c25886853d1e821b748054676e1adcdd5766, 0x01abd877b35e6f2e6bbbaac94fa88a6af25c7d40b8b0e2ff7236b50642a15262),
    (0x001715714904f41e2eb63a21c8e24ef289aa680efd431dde22b9099c13bf1ed0, 0x03e557041eaac12a3bdd25b9fbcb9a2c47fce937ec507cf1ddea99327247d406),
    (0x00601900aa7c0b2a5915a883d383652482242598406ca756eb481f5f730e31ca, 0x020be2053bf70701aa82d59e9c73c880de215e76ba079b1cfbe9364e21f738ec),
    (0x041a0a0126a4efd77a6f3c09c07295ab6b67863479cbb96a623d6f1d4c14b697, 0x037db3bdbfdc23896aacbf3b7bec1fc55a38395e83858344a3d639ab59ae89cb),
    (0x037931cf05cf420f574d3737d3af9e9fae3bab01ab7bd878267365866604bcbc, 0x032c0ab2cdcb7b104e9de0eae5209f59442e525a5e88ecb3d3eb43ac75479788),
    (0x04bf48c131b626d216c282a777b3b5950f03f37fbea7bc393aeec172e301bd26, 0x019703f6d42bac0d8f3140ea31b4807e5fc0cdc5ae5f79d7032336a0245ff63a),
    (0x06a4212b37fa208a47cbe9fde895db3d1541d51e25701e89efa119582bc71c51, 0x009c93080204740663a202824b059af76ea423eb05a7f688feb4ba104adf5974),
    (0x024150b90c0b9adb0f83c18fe1ae468be60c135923a100b308e410725dcef055, 0x0129e9fa0f8bfed2d21a921913ad0c07bb68a8c901483bdf2814abced6ca780a),
    (0x0483aca9f5b283fa9a4830279412c6c71490f005aa85760fea6d2f0840eb808c, 0x00498c44140d8c969d47f5870852df4eeb56ba0e3d103392bdf23422477c7077),
    (0x009dda3ae53a619eecc3c57f83ed4251ea9f1110902cbea8ad8fdf025ce45d8c, 0x00301da8adebc3387628a8ceea78cc8e2db5aef09bb6aced0cb7d9b7d2954816),
    (0x01b36c4f166481feac3d7514b94bfbbd077f59f3486242bc89a85194bca71e95, 0x0250d3d70c94e32d8105391eff1a36086489deb218ee14be07bab9b9cec770a9),
    (0x0024e0bd0ea7e1622395c128c7e430335555148600e5f017e784a54dc7657a82, 0x0011338d3fb064e0cec6bd71bf5ee10302ca101776a695ee6d4e7a3cf09bfe79),
    (0x00daa67743a08fa34518a6104c158962592a41586a81709591e16d5a3a2cef5e, 0x00bd174c5d9cf246704510760160eb0314c120c8b6f02f954248493755f39d5d),
    (0x0009053c8c94e538f41c2fe35c88b2e97138aee30dc7eb831b58160ee4d69d64, 0x0389ccaad12ed8a58ad77a9caed3cd48b3cbfc710e9ba8374e1bbe803dbc7f29),
    (0x0065534abc162829572449fb49d53c646ee560dfc60dd46c922f85011ff44d27, 0x034061814a7237d24914e1ade5d95796c6c291b315dd99c42703dc6237d55ada),
    (0x04830846030aefdc7e6a65e2be04fa93048f47251632b0b0992c09760a489038, 0x029377fa0ee6e8705ffbd58a6262bcd4ea68523f4ca8ec1ec39e55da1da5e662),
    (0x058f493e34692c658b7f7abef0306b923acd876419969ad424ff52f93ff41d34, 0x01f0f67799ff37903b863931116a5b36da83e7b573133acad596656194f7ee06),
    (0x0413e910bc961503695bbba568dca2fb0aa02308f65c64967dffef51aa7f5d53, 0x02f21e8ce13502dc8fbae2d54d23b2124d2948a1678bce97feee09d3e479b54b),
    (0x0277b206de0789465a1cf430f748849b0458dccbba7b6667600a926950409a75, 0x03223f1a98ce2d094e09f1b98d0dfbca151fea34a362f036d5ba3f2c2118eb87),
    (0x06080b9925cb7e4a5ef96a8cfefef14bc6159194a60400db4f483d7eb0aa3d9e, 0x000046680366a6151df1cdfcef6a080d43f620d2d8d08dfb5890d72571891770),
    (0x007a8f9d1f60dd271dad1d45d14dbf8b1e78064f8ba1640a6db861653fb0a2f7, 0x00339d35f2ad218e7d5cd25777408562e807a1176792d7cd338e82b130165192),
    (0x0293d778944e7c2cb0b419358e2e8a4d411214347397c69e7abedfc3d21d5753, 0x005adb1af3dbd61acee3cd9e2205fc8366cdbcb4985fe4bcc39e8f1e0619896c),
    (0x04edc16285f2c0e615fe7b862517f44690747f52f5d7bfed5ba0912f845b0d8c, 0x02385fa221b0c15870c1eef97299752a0a01d76129b5abafc2fd258c0b218fad),
    (0x07adba6dffed7c0c812779173dbd6e7efeadc76f24698bba7d502ce6c83dc702, 0x034d504fe07db804bcf8c79d72247c1852fbc9d0da344d654baaab2b9c839e65),
    (0x0394308588cb3366318c66d26679011151a91de141abb526f12955d61ce15c17, 0x01ebf8a20b19d53ed00d39900b8a86b15a35b80f57ad40d9fb30fa45cf389e0f),
    (0x01922ab77c25d3c0323f6b5965e723849ab9b78daa1da929950e39842eaf70cf, 0x01c9d94bac8e99bb4a527c3e1cfbdcb027629f7509f35eb411fd24bdb27123a2),
    (0x070cc7baa4e17458729531776778276fcf69578e9bd91bd7a287f985cb084ee4, 0x01e57cf96cc7143d3ba39d3707e2c57149cb1d5d7ae175aa2161f07e15fb481f),
    (0x06663aee3f0c67fbd765aacd1839a67a51e9eea9f1c05012eb3fd115507c4339, 0x02e03b49a406ea8497de25b8956b6758fec048a7782a982852ce05efe26662c0),
    (0x050dd39b86db03cb72fd639ef7aaf92d0311fcc13ee7b214509efd51e1ed9d22, 0x00e69befeaa1a906141c08b5239cab9297387e2aaf361025ccf9f0a2d91dc258),
    (0x01bd3edfa7bf550a7474828d652dd816408070f93cfc3ec886ac54feb0fcf312, 0x01c68453649f85ecd6e24b28a1ed350ab4d0404ee546c3a5cc26a8fff4d719bb),
    (0x0125e46d769f18bb293c5f4b8cf7f9eade40d90dfae6a5ff10f44eba03d7fee4, 0x0157c7a6b2f24c5b298218f6c363aab3ac0e61aa759cbdef57c8f970c1f07c65),
    (0x0529036195e38051b58957394bac6557c771b6736b4ffd16669699643a6b550c, 0x03eabbf8099150584292658e36b351126ebaf173e0bca3adaae40e6787618890),
    (0x02fbe312fd7821654b1846a6fc2475f2959bc212685778990c847e2ddd9a90f5, 0x035bc5bc63a001661407c81e7f7c6e599b8b8ce030ca3b258e1494da5cfa9fad),
    (0x040ceb5a08e9e91573d414370740d64d0712a939a5e0f39541b492c7b8e2e3bf, 0x01fd1bdc65e3d483bb7377c647ae21c2cc35ce93cce367eb7b9eef09bb4ec452),
    (0x0088550e4cc52399f23e106e5510fcf6909b7eeb9cb765f7a280597d895255c7, 0x021df7ed0abdbfc0e32eded80e741e27b0bb85afeb1807d10e1a56bb3aa74173),
    (0x06b9ad6581c4c479b5b79670dd5247364f1362ebea682ca2f48ce10d918226f6, 0x0256394c4a9596465824e646545bb9f0e27cabe18598131fe246920f4026b897),
    (0x0036c8914a4a600b1a5e3fb028a625b532b5a34b403a8f9d5bd4373197778c1c, 0x01a8909ea4919ef41579803687a522aa2fa4fd75cd72d52348059ded8c9e7f77),
    (0x00e989514c3f06657dc6e9e861ea016acd9a63f8a6a1e59a0a1e1404c9f9a618, 0x01b2e61e29fd99d655dd585fa9c561768aaeefdecc9a4dcf4ee6abfe2656f2d3),
    (0x0373ce69b7411b98a78145131284b0d7e92e7b5f553c9f908605f7466098a22e, 0x0312a90c7f61fa980a6567039496615f991b1f0fa6b02b79b540f3fc68bbe236),
    (0x027b9cc68be8ac980c9dfa89ce20eec78a23b2cac2034146b0da0ff6ea7ca5a6, 0x038d334b4dcc0fc3eafcd89d3e247579ae8b0d7ed369372de69b2d72efce26e3),
    (0x04bcfa2046e0887c01cee1328f9f1af390e1eeed0a4de0f851a90cf25e0c7b03, 0x00c1d24fb6108e4e35b5d0bd49f3e8084dc977a8414a849d83a6423fbb3c60c5),
    (0x01284d939627581d6abd80657216999b3f6a6fe5151dd48fbe449756458af644, 0x0263343af2a75478902b8a8480a968d4443b2422044127cfb78df555920701b3),
    (0x0470d4c503225f74fd468b9cf01e0cb166e2dafbf06b24ce02f07590bcae0392, 0x034c354fbbcfdf69226e8a6861a44193b6a682a7ef9127477064a2f39c993d81),
    (0x0582a003d8fcd5f4ea40d34cb1fee5cc07a96cdedb142dce76444964f8cac58c, 0x021927c0cc29ea8b61c3ed642332cc32cd0a4b28a3a781adfca535e03d686050),
    (0x06b15d6e66815a4b3097c56e363ba74ca480f205f2d0a21c000b19265cf3c9b4, 0x023367a4afef269ae233a0171f6156613a59221899e85ef52c488fe39cef27ca),
    (0x0672a2e5fa01b2a5e9c14f36607337cb829ee879a9a668e83486e60e8ff90398, 0x02b4b7c1f6aee6dad99ff49cde5c1b3bcb2eab2f45095edca3fe4c7087d8328e),
    (0x064d86ee99c06ccb55648b536b29a7ae9cecc50c6aac5519dc71da89f5cce6dc, 0x021d0e8832731ad3dee37a26e09956d7a2d18070c7060b273e818637b90f6b4e),
    (0x028417dd1d91bf848d223d420deec244d61e36573daf4bb952bfb5f5fe18a8d8, 0x03d499df3699ce1437209f8c162ca8ab60db026b931a121b398c1211590ac175),
    (0x04170f64d9cccf60808c73d373b9c99dd4f7f93f2daddef9a7effaf18c5a9446, 0x0046b33e2c3abf64420c8e0f560a52a05138b66c4f983090f3e6ad0a5e1e0304),
    (0x02ba0d3dfeb1ee83889c5ad8534ba15723a42b306e2f44d5eee10bfa939ae756, 0x031ba5dba94520ba704f0d71b4689dddb58fb283a05b2b07a028b4023738bd34),
    (0x06cb3fdb494f1bf297fd78f330be7e8c494de17f0bd237427e2af0ba5d7ded8e, 0x00fda7c170c352bb44ea14cb636a01e2d5fff5bc770d038a311f1988e502ca0d),
    (0x045c121c01c2565acf11dd7469fcf612c2ff425edb2618b05511e70a1e82926d, 0x01a2ef0828ce9779cb3b10637445b76e4bb107ba2fc54c4c4073ae5c0eb98079),
    (0x07546ca8a1def078182d1d87e3e943ecb9d6d92361d247a6418054319e596ff7, 0x00d8e39c1e099d6b2bcb996e1c845d0d16d0db5f6ef2d1f30cd70aecdd718bc5),
    (0x01fe314f8627c91365c90249d26a045d92059d110db66bbebe242a24b2c1d431, 0x008388848a504691d5360935d9b107e7fb592d0be4b3ec826346b39a32f44a43),
    (0x00b29e24e8d38eb52923b6ef90bf3c5647117c3f926312441b1133cd0e5cee87, 0x000e844fce58e42206ce03d1152a980e54ed35aa53d9d94bd48ff80f07a870b0),
    (0x00eb05b08c6042cc41ac7bb6f6f7c1f15c00a9b3dc23a9a3e48619e47cb8c1e7, 0x02aff2d27bd4828ebf6c584042e8aa2ea52b119590b64d6bd3ab63bb01aab42b),
    (0x01f40c55763a95ec5925d52d799878d26b6cac567a1b5b81511228b1764e1938, 0x00248d964c599e453b9d47c5756971a56cd84908f324486f76149efaf6211ca5),
    (0x02c6299c1dd5d7b516a6eccbd7aedef390097576cb7432ed5fce3a02c6d91807, 0x03c069cc22908ff6c298b6c7eccf39c309e27218067378c2f2789ece6ce6dd21),
    (0x07d65dd596161e3218bcf1ebb5cdc5761a847e3027e0ecbfccfb1384c2a14be2, 0x00b31254a0d21cd0225025a20360cd6e7d3b0453dcb2ea3412d63efce12bf8e5),
    (0x07e71e9fd26859a420a37cfe50dcdc8110cdf885372f2cb90d0861b41a6c4625, 0x007511289fd1a908bf28bf089210192ba4d2b2bb55675890a371385516660081),
    (0x06cea6759719ff73d6478414aa8d24714af1a8860a5090a32b260dba301b4996, 0x0380ac5ff9b20bc58e99536971353490c2d60b32e7135a7570d4309179d121fa),
    (0x05d69019f30bac91257a3ec661c8ba9f731ad1fe1e2338a4a687e7d203fd4850, 0x00b23707c306937c93b07f4329e4185c3b46ce9955045ecdfeff659cf6a4b12d),
    (0x05477486153368ebbf4b2a9112e48daa9ad48b5b4cdea01145bfd96fe65b07d5, 0x02ace5e01dd1fdcd70655a556f0420d4998eaf414d2914f6efd0e8b1b2c5b7f9),
    (0x064d782c2f53274028b00bead58883abb5d7709e8ac1b1a3f50ab23f2a47f2bf, 0x00a0648be4735e970a5f7389268ccff1b78a0d76a5f24fcd12993420e7b57a60),
    (0x03815c72e415a5b60791e6a28d12e5d30e90105ba0d2ba9d33f7850c4a29a0a7, 0x01a327db518335a779af723ec438437f9906170160af957368b9470d3ba28d7d),
    (0x04bbc2f720b35b61f970f76f5478df5be9b30a0db53f2a354c6afe1977f8709e, 0x00f46942c1c99d993c921e3988306b4ca280395f57529cb4b634624b6354e432),
    (0x01e85dde423673d696418c5bf102b223dde50d9d4d4066f02e189bc84108d2d6, 0x01f65c588af13884e43661599ae17f4ac1335887aa6874bebf530c89d7d9b45f),
    (0x0529eb3230b2d501afb7b7ef0c5ef7a99f7e8980a993353ffbb14c36ea100b23, 0x006f5d552471b09ab20ec17e83360d0d1e252c5488e6743ee17a6e3c8d7ed66c),
    (0x044ade9cc3aa4138e0c3ddc18883bb628380e7cc9def4e207939f13d9a46cb75, 0x01bced244328cebdc17586924c955d8c4613804215601abe3cfa74e7bc5bee39),
    (0x05e02f857c174d8dbb1248d3cf0646771ff8668add083c2e6db0f5127eb2ec9c, 0x030af40f315efe4a3b948b86848383f6cae0aeba0a128d1fd082fde2719451ac),
    (0x020fcd957ecc47b895bab8206454a53340c29370f3a7334f2cd16a47cb4422cc, 0x0194a9a7f18ea40111e2a9b0ba6cb52082fa2e797efeb26b82b3c21cd04313cc),
    (0x011f50d91cc76e8c941811e73ba272fd4ad1a402322e6040c15d8d62a766f926, 0x009b08b5501404edcc1a1847c7f419ce25ac1e455016bd3bb746a7d58bcae06a),
    (0x07f7daf5d6d934e0851c36bc93b7bee7518fb506cf7801a2cc2f9d03caa4fb03, 0x00daed85048b18cc38b14a7f7f8b197a0cc0ff7037d8a9c0f2beca3d7fae15fc),
    (0x05e60e45b65286db60a3ba9fe87c9cadc5885c7b9ecb96616204e7b3d2e98c3d, 0x018c56b6eec3350a44d514eede719ce13b7ced484eb906abdad146cc22b62f71),
    (0x004fd09b73eec8d6e5ee345ec3e7f1f18534e9b50abe166ce731f4eff9e95816, 0x0273e4bccf0b5ea4c81de27a2a632059b1ba18f62171846a59d632e75ffc42bd),
    (0x00ffcdcafea9c1a462a0b6c233d9e1d354da8513598edb2feaed5b0fff9709d4, 0x00093e246c6dce1df39809aae4d232456879b9f50f014750e6d056934f9b8ba5),
    (0x05daec9ee49b6899b09c63779ba7e902299626781f09c692627113ff66280707, 0x01724c6ae8983698e2b8748187c4ce7f9d5252bdaf454948383b34c35b4bcf73),
    (0x058f5d8713561284a8ada6e4fc34d777cddae78880990ebc394458d2dbe7cb83, 0x039702991f6a71489c160394817b57deb1c09bc872b8f52b8b8c7f3d05156674),
    (0x079033e9a4c308f1c41c0ae873ca678bda8f6bf08a611b9493a335f63aec5dc3, 0x0156084b42362d3341081ce1c7edfa15113eec4e0469ba62bc58b4f88eb36f93),
    (0x03869ee2f078fc4f11b7572e0d2f85e558b6fda0b39f9b924a368f528ac0e6fb, 0x01f36dea97e157c0ec56fc9efa84ec45e77b6be20dca947f435ffeefedbf48ae),
    (0x0103b514965486b5dec94155f77c20ec1afd6b54fd86e5f242632df40a79e44b, 0x01123ba1f13de7e7b95ca17935be5c84e9428937259a4042912b5b1224c24f4b),
    (0x06bf3526728fafb5b0cd7b769b57f77923f97af35af98b888ae2a0d1eca4c949, 0x00e2ce42c3b7c6a8144af0345c7bfe817f73fea92ffaccc45b867f9b036c1179),
    (0x002f1b029e9a607b64e12d3e2acc55fdf2f76ee086129abf78aaf3cae707fb52, 0x03f67d12448ba3498cdd08f0240723e5655924b0170f456dc268aece063123ce),
    (0x02844881f7644c6d9ca9886cb2037f4425b6e4508d6acd350afa2fbf992b0e56, 0x021e4d2de479a316e7024056282dd8589ac84a3d12b9c0df589fd7355a5fdc0d),
    (0x022cc8a57388755b722443834ea9d0f2ed9dd92bfb7ad032d77a5ca2887057cd, 0x030746caca347d5550882676ae462a469ff666410187e0e7f8fd80cedf1270f3),
    (0x0783a98259d8a0654823c63a77729534f496b81692d7ab390e4755841707a12b, 0x01ec526295b16e241366ab6b58bf5b661935b1e9d5bb56eab20996b2c7162255),
    (0x052fd0a7fc6e31226ede102c41a6d8e544419816df0b30e577289a0303b286e1, 0x028987b0a0d997372382a4b3e8d26ed60f3881de924e5b693eae0970fc9c972a),
    (0x078e9a6d7a9d69a9bdcb8123c621fccf9f9060667c1407c6ee926322bd6a9c65, 0x0131f92f4cb18928e42e1bcb6179d2ec23ef9d0f7426df5d8529b8fb0cbcfe82),
    (0x021177eb64b9c47247aec2a5cdfc7f2b26e3d44f19957e14150efa962c64606a, 0x03a56bb403635193c4d01479bf6e3ecca511e50d4df8f8135021cbc471d24359),
    (0x02a5a5c7ec39885e3c600cb5bf26fa39cc883a9530728f5d033ba27966cc036f, 0x00d8bac403e3996d0f46cdadd7ad0dae27f62a8d3d7e6b1355f07dfa2d1748b5),
    (0x0635b74203e49ff187015f0b28bd1631f8450dd670ec5e9c4ca70e5aa1e8d8bb, 0x029b2658602c6bc97d8bde04b796b2fc5e73dc5ec70164e5dc4527cdceb9faae),
    (0x03b49585f0e8ed8d6b77125a86ccd63c5c453e26b7aed185705e995f1dc24c08, 0x02b1d7122c3dce9b44eef4da01b51dc74b6154ac2c8f786934d7121c7bbbf0c3),
    (0x039d5d09a4b59a71804a4472622a253fc284ae23ef628b1a846caf1258ba6fd9, 0x02526a5c5386544be44359c57ffc93b5b210e9404fee26304978f087c487fbe6),
    (0x074f4cb7307a7712d0e8b98c9c4755e803fc28670fcc4551148c647fc3ea4cc9, 0x030073faf26229872ac5b3e9bd2a67fa568a9a9122c548fd61401c55704ec096),
    (0x052ed6ef846b814ed360cc306aff91a9a9b4eb5926218a223ec246e359950c71, 0x03cb41e8e7fa9a646e7a78a0857ffe6f6c76e839bec9830f390d857bed017182),
    (0x049fb871d1060b40ae821393e47c3d6c018c56fb81602a72749e4af5dcea8045, 0x02900c270203025cd9c5f8a3116d1cfd3f120530a71bb8b7f430cb1ffc52a26e),
    (0x04781e5270eb1c4b531d6e4551cf75df4019a1459ccbc6f2b744ca699e1d4ed0, 0x031b80e7df8d1aaa40db4596480822943a0e4a65bd807bde2768baeabb47fad4),
    (0x01e63177897a973b54b5ada44f71e1a95861597d3775033217666f0283522275, 0x00936f3e1168651b911cb6246616792bb0adffe42e5dac2bc5275a9382131d5c),
    (0x038c6cdc6ec412667b3efe805c343315db3a5c2912427a0f3c19bc9d21b684c8, 0x0153052fa359b780735332adb12a4d324243edff6e6e8775d2fae22784237b05),
    (0x04ec8b456c02869637bd186cd418c8e6bbe855e3ac4b321ab808d57e717184de, 0x03e8b35abf1445dd19df23436763e589230b183005fe89c98e23c599f1dfffde),
    (0x005dcb4da984a674632dcf3cbbb87735e0be59b120e2d8a30a3bbf346ccade3b, 0x006695ed00f79b96e96021f3e6e1a536b2ba9dc8837e828481e28fab42c3bf89),
    (0x055bfdcc44e3a9e9f0fac10d87cbc2d90be5b72c291d4377ceebdc977ee2f294, 0x00054bb96f071e71b65627af696335189cb0178856b065631117b3ec4586dc6b),
    (0x03059580106ff725d04a637206f08795536523ce4b8a5716dfe97b86f85af4a5, 0x02325c501facd4bb184446bb108ff1470a03ed61b4905a70b89a43929431a7f2),
    (0x046c10cdc1ae393cdf544b0090ebba4117a03a3501a0c8845763749653e5f220, 0x0086959ecb198479d5511212bc551c383a12f518a48cfb155c4d5fd8c6f9c7e1),
    (0x0753e572551308f2e94ff628a3a352a5e59cfeb373e2f0e177e6ff4f1be1ab5d, 0x01c000f9c255e329885d55d1458d0582dee9f93ecdededbb5d12931104bcdd79),
    (0x013ab8619c06fad2100636f5ed708a92408c873ebe3fe89028d5cc7298d9e8c1, 0x01b24831e210fb2499ecd2a9ff87eb7fff401e11e25f5763365bb9fb242f99df),
    (0x02292e6b8c27c8a977b123aeded796fe37bb68c53571ee6baf20897174a2d4e1, 0x00ba0896006bf57da121f6b79b814cb2fb9113b0f221d75b53c404da02240421),
    (0x0778c20c7d4a33a7e8e26989c90ec6aef97622f3535418085eeff0b7babc8033, 0x0254308f2a07d3abc19ea85ed81f8a78440d557d0e335f4bb86ba52faac396f3),
    (0x0419f3e919dbf6d23d28a9a9e5f3ffdc1eeccc1278016712cc2c29708b3e4cc4, 0x0132cc04bb1843edb5c729f11456d7599b1a6b13c9aab038ae3729bdbf721530),
    (0x05285cb2b815ee9cd838eafcd698adeb58c452701d0264f5ec9e3d4fb7774421, 0x0179968b4a0a462e44660c8ce2a7b6be9887f218041a1a93ee9ed6b0d0665599),
    (0x0078b44882ba5ddc09c552fa82a3728a5473fea7f18a2a513d9cb79e5f08af76, 0x0248a5e2385723cac35132b4daa5c30e95cad8ea6894cd2f7f3ec2d0cc468a26),
    (0x063144eb0536d2b32aa4b50f697256573c545e5bd05938bcd1d9729b100d6f87, 0x033dba8e35402311817905a37cae3e479c00e8692c3845022b376bd2e4bf7e93),
    (0x012a63be7d5315e3c1fda7e10a55ff5d099a00c9082591a14fa16575e704dbc8, 0x03d56a6cf1f164d1ebec0da6a433d53dce36c71cb1eb3988497b055d7100fc3b),
    (0x04c0a60f3fd82fe8d7aba32ee46352428b22bf1416c8e1d18be3177a4c20cf60, 0x003de4f342d3191e8578cfab612f738942d8c70dddb5ba6ef0c354ed3b83ca87),
    (0x04923ea416a246f4ea3e91248065a05859aeaf494d8d80ebb4354cf57df478db, 0x032d8ae6516ad0b2c07f49d86e415f6efe1ebe72e9cf627905822b0943da1fd2),
    (0x051a6694e9c167c666809ca2394aa6ba3e93547a8ef91bbf445e4d93acbf2554, 0x00971271ed3d3a7e17cd7422607473fa0a3fb2db992df927e3b7cfedfd6a38a4),
    (0x05d23132a41c1f30ee4b9b4fdc0812090bf0a727950a2c94c12616e85c4ad497, 0x00c9f03fc04961cd3b0da60b8b4048566a023ef4493c7e717dde329e6cb9bc56),
    (0x03a87f0b141322edd517dc98ca218cb03a9dbbde130055615a3f5d755725aeb9, 0x02722295dfc4058fb6420d0bf376c0841e758e156fdc0f8d2a14fa339465c794),
    (0x011058c21b7fd243baf75c1917dd2c490c4809b564429a25282478ea6c83dfc9, 0x02ccda127954a4e6487ca7e34f34e92a0f93d9cc48d88e581e1f100105663307),
    (0x04189ee0696c22a9af5c90f92c5f7995cdb645e8843e5f9f94e1d8497d59f069, 0x03590482228ab14f4dd2146a655c05224dfbe9ce81e0b5affb6e35b3a660ff87),
    (0x00a3b1f7159214e17b14ef828c67689bd4a20cfb79ef34abec4a0dd312c2d854, 0x035fde95d181cbc99c880d7b39f992f6757d6caddcf84af6360f8bb0dbe523e8),
    (0x000c252516c860f718f5a858172705c53f05db9ec60ccf40c53f18311db003a0, 0x00aa739c9277491865218bd16c8e2c79489238463be2efb1fbcb04c32a139b2a),
    (0x058411eec55071ef54d05cb74db366fb6a0fe5931e6a9a09a495b29363267b21, 0x03efb7d17bc0135c575660d440c454515e6cf0e45be5cff853613a15bc97df37),
    (0x00061f580e8e1a2b872890c869698d92a7c75393909465ca09ba6dfebd811afe, 0x0357d9e9a5174647102c5484104b4f271aabde5a39661388856889c9be5ed261),
    (0x051c1b6630602128add6bb158aa6b3f108a4d070fbfe62850e7ef6b61806f0d0, 0x01e94aac8603483608cde19b05fc786012f10ab0cbdc34aa747fa0bc1fa1375f),
    (0x07aaae612fee4154a5c60d1208cc055b6a8762aa8e61cc8feaea032369d474ea, 0x0373357b78a3e88f2fca7a986983de11b59c06a32ee8b0cad8c9b15cf1058b21),
    (0x07bc872769701c0a4926a2e7d2719a541443f282fc646903532d19ebff4ef867, 0x0343c263478551551e40015b7e97a2daac82c5ff5e644897fe1aa462be5eb8f0),
    (0x01cde87f65d6bef73b513782eb07d7352811611cafe7a839fd4a623cf007f06a, 0x03cba7dcdfe535869c6f522bb8e70cbcd8b18d0b3ae76864ffcebac06f824ea8),
    (0x00b64e2f8b90ff241ff2ffc853b70cc7f48e84e4fdcb440b9fb6214584181e3b, 0x009e480a1200526cf3ccfaea666a4317079b1559f0ebb14c557a056554439413),
    (0x049f95fa49f8153e36cc0da4daec61d37b46d0317505e50b85b5e1748adbb9fe, 0x0295929fa14e82f0b823be5c9deb4a14331c8727e825bf0af25882f42d3e2dd0),
    (0x04e53f0ea1e4c5bdb23fdf171a1b8485f2f7df09eba23a932b26fd960c42ce15, 0x03d9e8d9ad91332756cba3fc2991b107ba2584cbf2eb541e36595a62c53bf83b),
    (0x04c9811dc82bb472649ce2a83b26a8b0739add96d81a815db74d62aba1c9af1f, 0x037d1a8e7d4fb54495b3061d1b7a31de4e28d5be0adfd139b386ae09336b7373),
    (0x000a61e05260c14b08af6458c01541dc8d76502ffb64d6b09e6718856cc6f9b3, 0x01433405305de6ae4a74108b6cfdaa34234e1a9a83dd6890678a7a742449a272),
    (0x052e87e3161aa42db450ac4176e278d0582638d74f65026224972854d2585ea1, 0x016bf36f892ff94e592c03dc3e9437390be875098e1a8f7c517fa7a88f1ac61f),
    (0x0191a50daf714d63c78b0d8d75d522ca1969de0116b003b715978cf6e598a660, 0x0253f6357e6bd29bc25ef287a770fcf8c8ba6b3fc0b3bf3cd9cd6ce950f88a23),
    (0x06f8efc97a133a1980d265643edbb77309f77bb7c7bcdbbf8465a39ecc2e98fe, 0x02e3275ec2d9f32552cf4992bff312a738c9e1beb7422c5e07469e197d3fdc27),
    (0x04511e53e7407684e2df402b5594974aae9969f472f58a990add693f18c792a2, 0x0088bb48d92fc6bb5767fec804156898c280136991ba56685ceb58bff4947767),
    (0x056b558b770429a34b5f00527e8769675945f25a96e13c8c1f3240347297bb95, 0x02334622850e9a18ecc41ee58183e66866d2d05bcbc3ea2ff6173278c0b2886c),
    (0x04ea79cafaa0d6ca4731b0385af5197db944ba7d4f99de3ca3cab3f2f535d197, 0x00ce6fe74c7ddb9f40f2684bcbe0723e345d8196500009976ef7214e0cee97e8),
    (0x06c65946cd51da9c30a36c38089e1370be2ed6b964bc3bf7a58d8050bcd867b9, 0x0238b983afeed5c6d09ed9fa73a92f5cbe3178e15a809dffe13fd294cc8e20bd),
    (0x0261993ea595627123f820a0be8db872f636da9918e0311f467839fa78591371, 0x03a5a1598ff99ba03822675b51ce7d2a8016697225ede7b4107e9e85e3789aa7),
    (0x02462c8623c8174d0f53c95a9e65cc9011bceb9fc5c5e47526a101ccb55a8948, 0x02e6f6bfa0b2aaa64f569b6340af9d920dd2409973e2778d4debff6a6aaaed2c),
    (0x027f49416646b6ada84b3445933b77c67f064ba44afca74dbb9e96e630d3992b, 0x0386d93fe81c98d8b65244112a3dece1c310eba6abfee10baf0e80e8f003b048),
    (0x02f5028bdd9240da43e90640d3248f7492659b98d5eb1387b31306f9669704cf, 0x020e59f6098ddad615ddfa242d46ad749a44b9e212e347f921515cb0c2a69d91),
    (0x056d4654489ef310c5a3e3e3619397c05ecd0137b9ef1c599e3a8c66bd941ddf, 0x01c9007009a59af79e57abc29fc855da3c98d55e70a133b64c6c84f25c472b88),
    (0x041fce82bcd947a9613cf294a76f5da3fd918dc8ba351f51ed74f80f4e8c42cd, 0x00ae9359056ead47305403ae84d2d1d7614ccc8054422207971b4ad0a764faeb),
    (0x015e3056478280b334654259621a3bed58e75a801da500dafcda038eae9be424, 0x03a428b22f9917b769a1dc4d6c1b6cfaed1381af6837e8054e9fd0eb89c920c1),
    (0x04e6305e805d8631420ac29e2a12c2e932a401b2f863eac5ece2c8cdd6bbe23e, 0x026e2273b24d76064f16dfd0c22a1ca2d7ba07c22db5fb4bc27cbd91c96c9054),
    (0x04f3f304708f201959306dbf9ba166af01d34c95178fa34eeead515aef013d30, 0x0299acc51dd47a63cb63ccdfeabd7434471a4d5bf5a6aba76702d76c1d9fec56),
    (0x053d656782440f86eebbaa47a2f532fcbd4e8bb7698ba0bd0757a0b4a44969df, 0x03f23655066cf2564d53196b5e478e9441be0a677dd7b3f94b8d597e56f7171f),
    (0x0315b0daf52a1e0602ecfb6fa4946c43c169acec9ceab2908e70532a7f663964, 0x036a3da480637dc8dd703fd49bc81eae32b1381a352d3fbe660658c9fc277b7b),
    (0x058f62b1c8e9f5d3e02e9b0e628190d8294f2e9d55e72bacc711c5964c30faf6, 0x03dd53d695fe87ba764bee0c86021b691c79f9b3db5b07704b929cdfaac31578),
    (0x0572732409f972a703aa18c58ddcb5cc80c42b0cb1142eaa553839974c52fe58, 0x024a0e5e42f3cf78d1b7c1b5c97f8c464f7898f73501154e2187ad7fa77612c5),
    (0x016129b93dd2c1ccc5bcf47b4d62a4c47a70099ffdc69fe0b02a5fb08116075e, 0x010f0f9ec67a9bef8b365ec2cf474e2a047765f1ad1aa82649f81a0ef4cae9f8),
    (0x006fe01f2d82f67d84bdb63445a260706236e0073e06968080277195c3658dde, 0x00ef34821239685fffb3aba7777de5a43dd3a94426d3d4bfbe8b96419a6bd420),
    (0x067158f0a5d04e941f4e09828304664f925f5d498cb2446848604791842365ef, 0x02f6ce44b87dc9d7f771943fe1d6e32d97f7830726e7189eb03c2e9386756499),
    (0x026356f7af4e696961dd162be81175febf7438684e5f446069b42a839830fbdb, 0x02786725c3ab42854a42ce48bb5d7b4850d4625fddf592ded3ec5d85bfc76194),
    (0x03c0561ede5bbc8a9e5107e1a20c98b6eb4e5b132c5159e21eff0e1b42723754, 0x0175388519464d14aaf44e3685742e5ee7e00cb7394bca37a5264eaebe27f512),
    (0x0084cb46cc865d3a4cbe33b6a9b6914f4978619f43ffc2af110bce073327f1ef, 0x00b5e2e749dc47c2a4d74be827960368bf5923b7aa40b4c1492744548d3b60b5),
    (0x0500e9d04912d14b0a7db89d1831325560b2396f204a0acd224f2b78bd613c93, 0x00046437356cf1f9dbd9e14c20f6b7238ad45b8e5b6faab80e396846da729d33),
    (0x01ed48efb7f4ab118d981948ed9dad3c934916d196883fb38db6409d4727c7d7, 0x01733b4ab9a39d0e9fb8050be258d1753b8c738cf0ba2a59f21fc28059a325b3),
    (0x0016fa4f5e056509150307406411de668a1bf485cf87cc688cfa9d8b9c36bd22, 0x01167fd0b50d6a022a55c0ba462fc526c9465c93b8d22e9b5637f07251cd7381),
    (0x056c7bc2ee3772c853e13f3e41d92f933884d665da4507afa57f2c784feb9e01, 0x03c9bc6bb94431647f5d20b5bd786256049114ea89e33f614d7faaec94b085fc),
    (0x013435174ebf1269c01ac67c2d4835ca50f97da8079551da3bb81d565895ac6c, 0x02fc4561001cb0e9b1b060161f8a80ac32ec660b921e61400f09e6c45a89cf14),
    (0x00badcad87064fa9f2f6fbdf93bd2f85ce28d27a483f2e1b08d984432368cc4d, 0x00df1970d13aa99f79c96109af36abeabcb5e6eb26c5b792d9cdcbc08c2768a9),
    (0x03693aeaa365e29d41e1dea2572f7519dd9e05eb6d50b605611442f251c673bf, 0x00ff17382e0fbd4620fdfef8feac243d960e5a5ce3d966ec55a048f8e00ac2ba),
    (0x01bf80fc784e00f25c457abc4f715801a68999a737af38473dede51303fabde3, 0x014a0ed006e5c80a2a60c1df426d00ce305a36f37ca6922587dd786f00b1ba4e),
    (0x04ea26f730e82bb715a98e41b1a1121603e9047cfdc8beae0dd6d5bfc78e07fd, 0x014e9dfb0207cd78739909419c953ad759022fdc7dcd8adfd7351f2fe44c3999),
    (0x07a654eac924976eebf709bdf6df6823c6a42448d1dab91e1144603d50143a13, 0x03ea9ad72e22f330bad29064a532f8d10b8a66b6b0220b0020d57402bc3bf85a),
    (0x01d08ff690e0903b8b382c00c5c4756ae1a6db350973ce8bc04c24a386a6a9cc, 0x03ec9aa0ebcb0737183abb1c2d9a6e300dfac9d2e92648a20c33569243431c7b),
    (0x045c10f66cb3f2bb8c4a2bbd306f9e908e3193c57bca384d6a9f55f793038ca2, 0x0312dd1ba6a156e639111fc6d9babc1012e7d848933ce3864d0958193329c3a9),
    (0x0574879407a659e7c417c32d0a28159ac24a97bf6f750e174e7c5b67f2ed6bd9, 0x0168b6c5beb28e89c1c06881c00284684f614370f9ed10bead771b4014f9db62),
    (0x024f12eba2431aa3c20307ecf79dd60479dde2e0d5a9ac78681083decd2ba4ca, 0x02f7ed9b912c6b299ec02a19e77518aebbed9369e320870707ae317a36c6c1f7),
    (0x02db90a9462cbffdf993443f5e080dc8705aa07d2f6300732c01413c38d0db35, 0x039eae7cc6a1c5d435025b5c8c2923d4a1867e3aefd582aa50595f520add184c),
    (0x075d49b3c2af0f3bdc86293fa485e4fb814b690a819ca0dcea3be20658ff8167, 0x00bedcc0fc3c6c607b451777e810164d2b5057b041ca31bd6329f1b67bf52b07),
    (0x030a30018f83fa9570825f684d65c76f550ccc607136493658af066fdc64473c, 0x00aaf4fc2b42cdd1821c5542b8eb37147d43daa6e8da55efa58016ff9400ec89),
    (0x059e613a7ca62c41df5c01df12971d51e95f24e7674f3da167d4f928b2ae030b, 0x01f51f4e10d2fa855c04a7124169085db7ebc5e8cd281b5d1b9455bad5be5965),
    (0x00a41a8eceb53ec99de74daacfb1d48abb041e4d07caa37e1c6884c0f9d18c51, 0x01949090ffd620036df483b141b26bae3bbce67568fecffe7f2cbf37250e0562),
    (0x033f01db3bf539089e2ae9ac287e21e19e0e552085921bbc89648a539b4aa20f, 0x006d695e7aeb8a17dba02b48c06d171adfb12d4b50fb6e40326887d4d7a6392e),
    (0x004b1202ce344ab5294b5444f58b008546d35ba097a7e18286cd2b64db9ae172, 0x03290c13e43cf7dd9def659b15336bee35da3e5449ed54dff86b930b02e825b6),
    (0x00b6d09248d4e2ebf1d9da24f7c4dffefeb43ca908ddc9f081df9a82755483b0, 0x0074cafe46ee3b77364b9ee89a59db623b7498352affd018437eb8e3e10f04b0),
    (0x058458d3be3fb461d4ca976e8a6695d7955e9ee52f90590a06058fb18dda5a90, 0x00bad5162ce015ac879d77da811db4a2aaabf3b294d25edfff306cc62b5c3960),
    (0x0718576d513a5f6717f4f14dd6b0a24647f21109bc831443a68edf19fcc3f3ca, 0x037d9fd35488739b9199f27db8828a5d94cf26f05df47b94538e38ca7fc5bfd1),
    (0x03d66f7387a2f0f119117d9ee1da4803c6f3b90907c0cf0435f1946c572f71fa, 0x002cd845a19413c4cb246d692dfa0af6611dbcb0dd4844ff1833992c0dfe3bfe),
    (0x02c236d4e94f350a87250c49b7c1d5c0d1c32da3d5b12b77de97d1cd4da2ed19, 0x024258b56b934b224075bfdeafdec5a52e9d0c1b0a0764868384254585677146),
    (0x045e03b48f8f6d0889b165a5d6ce7c03848605ac657fb1b08e3a0ffc8ab2c9be, 0x0037640ffb9bb16014179c483c0b832f7736db547c4151c31654375493b3f4b5),
    (0x0783df8e738b742f86dbc0a5d0aaf0b463c55208bde94ddb25193b0ae7739fbc, 0x01988f5a1f153d1ac4ac9f05e6ca960e4fdb737411758cd9237ab8fcb489d95a),
    (0x004f512bfaeaac539597787724c0c9fe3205911ff0a292e66f5251d872e0ac27, 0x007bbd0934537c79b21388b14e26fb4e0a45ebbd785cca6c61494be6f0ff8be2),
    (0x00438890e188c16416bd3bcc4647890a5cfc40e3ee260ce487614ccc1c6de2ce, 0x0278ac92539181ce6ecddd3cd17f26d8a9867b9d04d648b39c23037d8eaf7793),
    (0x0559f41c2500783db84a29531d3d6eca35b11c6a5284dc0d9ea210b0b8bcbd45, 0x01af8fdc9ab17d3c90c898d48c89732c1d5fbabb452df0f12e9b2f3cd5382fea),
    (0x01939ad1ead846c989da906ea5d7d7d27cdfd1be7027b7c35f0d96e8c1e52d4f, 0x03589e320242129a130dd0a4dd9d2c35a346125c7622d4065aeefd76bb7cef67),
    (0x00d9aa7be65971fe1f13e7cefd760e687e7e36c54de8a7dabfa93eab020c7b0b, 0x02852492b57e05e7eb61f7f5ecff2ff8a9633304f84322a247a60573713d51d2),
    (0x012e45784c7a8dde161dea8576c37a4d01929f82573eceb30842bf3f6239f98f, 0x009b26069ebcb1760c1f6a45e05a0866d91a59a4e3dac1f44e2847fdbf238cf9),
    (0x058b72cbf5e61094c4c6c9b4e79a7d0aa76d75a82aff3960ab54c6318f5897fd, 0x00ac843352f14f3f3531d289f869e6231e567e16a6db69c4a8482aa46dbc1646),
    (0x0067ffc4b0746aaaa66bb63537751c00becf3655f49304057dd7f6b64e44b774, 0x01b9c00e857958712025b68969b60e560c1c9f0d880340e27c06cf76cbcac16e),
    (0x0526c3852b714d6a6b7ef396e5f9a3297c2a3852093494aec0ebff6aee7f4135, 0x01895a5b0c68cecb06ff6ef75edd471c453b14d7a06adb78b5d58a3ea055bc9b),
    (0x029df50d0411f78e22037ebec835df84b2e2cbeb8eb2f83d6645491f773489eb, 0x0384199611665149e477891823daf1fad954f12512fc1822318c25df404c081b),
    (0x06cb707af3dad0b40f84ad9a33967298cda9474e57604f733450c6c404cd6dd3, 0x01895b1125d8111ca615fc206f852fded518edbb99a29f21d9a804a73073dc95),
    (0x009ba020b37ad153c3f36f62ddf299d1ae80bdb88c12d070e6b004b9443ca83f, 0x0261fd0e65708a1b2b1cea6f02b8f176fb02ad97ebd0cff629aa515bce8b7963),
    (0x0438d911ea6ced64100a995e28d018f9bb7cc10659f6c443114f2a83ff5b88c7, 0x02b06c0174eb6bca5415cde472aa859c9867f293210b47073737d021cd456529),
    (0x01a78a9ad366d9440f2b2f342d1de715c192fe727d4dac52e3f68a0a27206d79, 0x02fd60b87e2200966b34cb175974fa552b6a330020cdeac85dc7ceb2a045d1e7),
    (0x050b59340cc2d93b25db843d49b2a697c57fda22c30ee06c90097bfdb108138d, 0x00d7f998135d65ca9c75773d16b5d9b1877c4033ad21817f2012d33139659e2f),
    (0x0408f45f10d9f96139c8ba7b54fbc15be7763fd69367e0163e16f3c8f14fe006, 0x013faca83366df102c48d975b5a05cfa7312fbd73de27bdf646867f3d22b6d7e),
    (0x00b05c91e84b896d8badc5849e81c3890a2d91c53b30e481c9fa4291d3c7c3a5, 0x00948e55d2d19d55d516a2b5796f1ec89a721608d620aeabd3cd4869df82e56e),
    (0x00adbd1c2236c6719d8fe50f9c02989d97802833d24260472c28a09d83415e6f, 0x00f9326b136a335a90e86ea3358c25a3bbfa79c2b4264828aa46f8d9d3889cf5),
    (0x005b439ca306b0402abc67fbf5c7be8d416700a827229860e16232067267842a, 0x005a20aa91a01e9145e18f6f0f05ac7d080eea0819ab85920eab615fb8e0e4a3),
    (0x037a8cdd72b8fabc23f72fa5f169eb12240acc72050ae9d0f1f0c201b3df3376, 0x02b85d08aa3b0478e496e2bf4856618784762f16437a9f4fb6a20614b42ee212),
    (0x0407c683f4d25319fbbf2584086ae7b3624963f441a304be2ffa89a0cfd82176, 0x005051dd3aa13b13377ba29f7a26f6418e5149fdda66654767409af1b6367234),
    (0x01ff5abfc986a66c66d814fbd546b1cbf4fc3cf5c47eff265f0add90d0f6bcee, 0x004c776071e5e1d646166ef0721ec81c6b0bf9889d8c9c1522d1750b4a75e90f),
    (0x029a8c8b71f7710085d59ec421fa20ae2d15345a8461f165cdb0c1ff9cd2e6fa, 0x024e69df0fcc28608d54f0f21663fe6aa6806dc9dcfd3914c4250d5d802bdd7b),
    (0x035080e09d2319df82b603cea6203f8ca10068461d19018cc0b584408669b5a5, 0x004d882a99b51a6638d659393a13d0059829c14c39c3cb90d6abb4c6415f0ad7),
    (0x015cb3c6e8a4bda3d6463c48d7f296564effd59b38032ae4f4c4caa58e229bcc, 0x03d221f8436a7e4f38e65b6396c0e360d374fa3c69ba56924d40d6c761264f0c),
    (0x0375ccbdd7dc82ccd95fcd8b0c182d2d0fb13a27a1f3075468d010bff9fd31e2, 0x03733c4098a7f955430071c6f05fa38aff4e88d07ffca592160d7171c8612740),
    (0x0705aa5a2f3fd0939fe508e8421edff01b5043d4db56af49a5c5848880fa6a7d, 0x03b414ac278c8f6709d0fb140d6f4b05927dbb267349984a3a41c3ddad86d224),
    (0x026dd650bec4a8b9f4601bccbd5725db68ba08d5a2612094ce1f07e062da52bd, 0x00407f17e79b0c103ad116b6d2089033f210a30357f30ecfdf7835d6385f903e),
    (0x00838615ae3efae78b37201a3a9d49a83244fcbd392aa012e4d152c650206618, 0x02ca44340d36cb32e8b4e19f48eb9c4bee1e9fa450bc9918d4b2972e026063af),
    (0x032e72327bbaca46f72b6195ca00e84484edfed67dd87486f3f894111d1cc9a3, 0x01e198e249efaa79420d03bc1ba4653221a6f3c1b13903f011e545f888da9d01),
    (0x00281e022540a98c39c0f32aa847c43879158b198516a3f0a8ac9b5e8ce28ebd, 0x01bc9e7f29ff1f260f6e0cfb7bd923b7b0831818864d5655cc8cc070bf39f9a5),
    (0x036742056dda9882344a829d2a45b4fadf97ff6b178f3dc3cf1fb46f376b68c4, 0x03169ad289013192cc2fef8ba528e08ee7034a853b13244f77d3ec1050ea8758),
    (0x07f3240979a82dc23c9f1077a1138cb1a44e38f57578a5c27722f129bd984ea8, 0x0198fa22f11da3c9730ffb228c9c3591fe6ee462415941dfb1acde6cf3d37e92),
    (0x07e119a95e3f72f6251a2a3c95159054f62ccc4b5fa72d7844786a48aa28e737, 0x0070051b735806131459fd7f6c917798f9d7052e83c32ffe2b52616e701459f2),
    (0x02ef576dab46cb67b0a990daf7a1a417da0f228ce3f46155a52d9050afff0a20, 0x00fe8a34f8449c00a39838dedaf1eabc62d286b1cc56d396b78ba856e3240ad1),
    (0x050c93a6c15022e2a33506208e935db4da381ae4c18cad1fca56650eb0ac8bbd, 0x031dae1ea0ecab1d42d0f334e2c51b421f86dd821833a6e5b8f579cd87558064),
    (0x0211242f7d18a0b85ce2a96412459ba04b890fb715bb5595884f7fe3104ce8b7, 0x023ef07698156ea472d1b9ca80834e177154c345a9b70df52d12ffa8843cf3c1),
    (0x0777e18a1e80d899d359af44db80a3b121687ea36bdc2ac18a4be7c50bc223bf, 0x00121e9a003f73b1110e06f662d759ccf997421150887d5fceaed37df5b5fa8f),
    (0x0089f7802731a3442f2ff718dda7b7368f6cfdac0a96a9ceb75e73eea66f4dd9, 0x0044cd606cfa5d0c6be6b771e563123273c9d2aa942d74e289d0914d3cbeeef8),
    (0x0192059be178b6a77457ca4457608bbef70bdaa211a3978d0a1c3f5f3a13dd73, 0x0005b2801d11e59cca5a6ebb88afe978b4401de5702edc929bdd60e07f652da2),
    (0x01d7b8d1f3c2e27d48727e8ccf11bd637e0c819441115822591209c173d67bfe, 0x039b1a215c330c7c09e11754ec67835928e899cc67883f7f61f66dd9cce0c254),
    (0x0127a4cadd6f44607e285e19fe8fe8955aee203b8eb42df5b22f85297590ee51, 0x0362cbdc8de6a5edd6ced843ce4ae04e8ba958b054d3432a78892da2197aea94),
    (0x073b380f64a7881c775b7922b3ed8906a0e21733216059cdd871bc002023c1fe, 0x00336024dca051d29e88dec9cb75586daac63dcacf80db7feb22ff1181389119),
    (0x07666cf671d1c1296806e678d248f226475d7ea660c575504c826ff6e5f4e112, 0x03f07d41ac52208ee42bfd8cf3f6d94f1cdb3286da4a3b04604b15b2183b10c1),
    (0x0730fd3cbbec5cd49a95d7ef612309431291ce2840863ca0f1b55352c4e3ca3c, 0x03c5c0ff31efb73f7c6c1bbf3ef5e82b803a7c5032da2e61459855922eb93f4c),
    (0x014a3f2c1caf96734052b1e6e1b623d31b6e312fefbb030f9da2defa592f49d1, 0x030afca0254b5c36c9870c0749a259245d5461a5cef2147c39af838a8648bbb5),
    (0x030688d726172033c7a90acdf1bd6db78f73001604cb864897926fe1e9701409, 0x00e995bf1fd235741490f42b0935870fa00222161502bc3f437820740f5d919f),
    (0x072310aeae39ad3d4b98ce69326ef9958178a92b0b961963adbc8d25ee70ec87, 0x01193f4e981a9bcea10c8f573c9a6d3827ff7653276dbbb8f8c3f40f0607ea07),
    (0x00bc2a355884516bd5cf1aff0c57f1781dbe015cfeb29e1f7a4d10e1a3efa778, 0x01bd062cdca4456a052c372d2c224f8a6a1b651d3c31b45df5823e30652a71d9),
    (0x0512524c09bdf5aca8ec9bc1927f183129cfc6588a7656862702ed1ecb6f162b, 0x01774c66f3ee65b8c0868211bfb50c924978b9fe845aa524b7fb416babd0e5db),
    (0x03a65a9dd00f7f75bf541e37305af1f03f54379717c3acce37a8ca51443f44e5, 0x00afc5e57b6afacc4bfac384907dd62c01826bb3bd8a5baf3db2bb6cffab8e44),
    (0x03143807c7e69f4a73a4afbc217a81601860e79568f7593f2b8605cb36248c81, 0x01da6593b6acbd8db6c112cafa531d1bc095486d80d90653e725242333b001fa),
    (0x041659b16ea2ddd0661971a198f1c17fa1a1ea7de633fe6b15ac78f477bd5419, 0x02de013f5340625c71c99a5471ab5f3033e3a71c543f2758b0942e7c93539433),
    (0x060915fdf37823cd89581857aa7402c57124adff8ce0ff1486cd7a97c8c95cef, 0x0255788d130887ff3b3ab8b7f81b46f1f32be0329795e50f673b8c4e80c3a2be),
    (0x026cbf9d690690cc406bbc03638b250f9b5d4df81731689f629fa9fa4a787216, 0x03adfd4e6c8aae788fdcf163936a7c66a0d9595e0f3662558fc705bb031ec287),
    (0x01dfaab1c31b78498c27d3f451d3f8659f388c02cecd5c89b33297be872fb9f5, 0x02a55287cae8692ec02d2bda7bf3fd9490f169b34f3fb76aefa63dbe45f641ea),
    (0x00f8c7de1d0b8aab6a8505e12e302456b5efb03d4e7850498f2e9562fc7e7e82, 0x0218af27398a539ef9e265854e994828f44b957a57a211538244d9d811396774),
    (0x0103933392126540328b995e4fca239c6dd06db8e890a32d08e224b3649eee3e, 0x00633e43a2e882f4d5b73acb2b281967d5255ceeb207325b0d574c7c35c41a0f),
    (0x049c4450e16d8ad5e683b8f463c0440255adb95c810bea824d1d639b232a14a7, 0x037ad47b079eeca63f432507e64cbc8cbcd2d130f78721f9ef72ae430c38f12f),
    (0x06f60cec11f269f33a91f85856c2b4b78a0d8d1c4d2f8177fab32fa5e855d5d3, 0x003b2307f8a5481b4a8fe568c85158b06d35f574b4b5d1ffa8ecc13106cb9bc4),
    (0x00a4f8b61a496b9e628e1c08d06352cca0cc1799307cecc52064b418bfb23f64, 0x00b896ed603c94d09afeda13bc2001c0069a37e96bf31ef5c1c1a9a941427864),
    (0x078be7deba1d4899651e8144e0fe27d9debda7ca5e2400a10b51829fb60085ce, 0x0210e250e46409dbc62c58e5afc0f0225e33640a55088d6ec5ba50611e4ad360),
    (0x0450c570dc28d999cf745718676c16bf1ea6c99dd0e4dde799665f9acbe3a4e3, 0x02358eb7c9beb423c959a6acd06ceca32a8682eef047a6a40893c6bfa19c53a1),
    (0x05319fb8f8fcb6c5f2131e1366c974c8e36b2d2f96f540b4dabde200beadc6d3, 0x02478272679fd188d181071858bd495b188af772dae5c61e5569195239724856),
    (0x02c9c205fcb6ab9297d9eb8b64a7034c87bc0855d0afa23f9b32c395123477c0, 0x0351db0a3195c9848a000b1998f6f11430ee09e062cb1757ab8736061f6bfbb6),
    (0x01c421af41c7e57f66b34f2062950cab18a6de7725fcb375995ffb0303d1ca9d, 0x002d76b9628e7e853c500828c953ec190f9fcb7d17133f2c61dbd78260c76562),
    (0x0341cb0758588ef90f7d33ad9c5fb15bd19d93049dae582d37cd9133073941c8, 0x02b8a7a8836e880b0943db96f6042e40a3f319e790eead07396c8bd21b9d40a4),
    (0x046cde37b100ae9a0237283bd3debbefb66dabda119ec6cc957679655f5a7564, 0x020d13468d32300a97e06a953d99ea20d53aed9b6a4b147c82de54dd5dfa64ff),
    (0x01248c6b1c95c9fad6052e5b9051d6a9d780e4b1776cd61c266d93f512e0f50c, 0x01cdd50e7cdf6960ddaaac11c2f5ca70a9769bc93a796d58ac48a6f23e6a1f31),
    (0x00085bade0120bfa82d7fb8c6ff49c1a2ef803a63db52763026fb00a4250f4fd, 0x03a87c5af09d605472f68ac49bc0433b5d0a417923f00ddd7cab0c834b984ea4),
    (0x0629b38f9771b9d20337824f60ffa351853b092112a4745750497a41cf798c09, 0x01c249027ea66f37321e7965a73beaca60de8c94074ca45466ac068724746686),
    (0x019a71fb7f6a4c4e7aeb088d386ec4bca80e871ff90cc7c5208e1192333a2c27, 0x027fc83be8d0265706279719692fdfd78f238c969707ab17f706f8ea89e3e90a),
    (0x013a9654e65b5884f6cb093197bfc8d235eb2c5de6b6815f362f3acf0e9e28a3, 0x0058ce0948436d4a6111efcba348a2de6c2a0b9daea3ecbdd57db71be65eeed3),
    (0x0550cdd9621f2ed5bdc2188a0a25aff90d63277de406b2d8c487ef27a281df24, 0x03147ed88781a4276f96f63f39dd98079f7f4f93e8e553d78851837edce7822d),
    (0x01fb78389d91deef89039d400eb182c1afaf7689d17f581ae06103fbdfbc97de, 0x021f3a95952c314457aadae66dd169436580c8dd8ca6f9ba067e07e9644be228),
    (0x031aa5b93c7edd5216543625f67082467cec3785b085bb5761541339e7f84827, 0x028fc4810a2f801c1eb577e448190fc8a9c3f13fa9775ffc40613b36e9f1d992),
    (0x00b3ab6b6e33571bb652c08fa82e9ad4c2d55492a34e7771eaafb7057cbcee9a, 0x0271839db76c1ffc9bb53c4c83326075db73e927fde708cad3d6f175143f492b),
    (0x07bcbfdfe79d3f695e29cb4a57869084fa6c8bc9f449a972309a44afc45ff44b, 0x004f91172a2321f7475e05298358e69164a536e327be76bc07a9dfe622518e34),
    (0x035bac8fcb38dcfc2327b5a238789880e3a0dd1aaae39ebb5046b100602ecce5, 0x03383219f23ee741b38b597a79ddfdbf9349e5ba8362218bf9140784acfde934),
    (0x0580ba87145e037f53fcd8bc1b78f3bd221e3e9ae8e5f5ff52d96d2b45c5999f, 0x025d643819ec25831faf4ae524cde4601c7aeb792923be0871c6114523e3c288),
    (0x056f1abfe8e65382dc7c8304ddcb6bc36a5619734e18049c4f33fad14620040c, 0x01d491cb25dc175829f6e7f7b7593455519ba9a81e34e71179310d57fefd0d63),
    (0x02d0a1badcde12ee5efc936b454ec563f65c38e5ed40094a09afd9bbe46d881e, 0x0352288348e213120f5253971700a5556bd69503cf56844caaf9dce64cd1c3b7),
    (0x013b90428ef3dd67aacefffa4ab8146b2a67a450ddfdc1e1198b428f584a8113, 0x0005c6ff6f9ead51e640cf27f4e58c5bfaff690ff4a2fa4cb77404eca31807a9),
    (0x03fd5f0a73c8a1eade6422f722e5d78beac65d401f752a78c952efac43223122, 0x0207fbc56a142b26d20a74949a1bebb34e6bdac4af8ef6f9f870283b1b5e6e9e),
    (0x021744e6cc98e7e3cca329f6b635a707bf0683554c50f1e55f3c667ca493ef43, 0x02feacdf1ef3ca2562b9bb3bea4f564266f026862d6363e98861744b5cd1dac6),
    (0x045b59f365381ba9dc109c3ce7ef91286512722d34ae35336454a5381329a73b, 0x00f8562c02e1e53c76ff3e93a3bbc39ac7c2a2f86080065e97c1a07834476f53),
    (0x022ac196588e0a6032ee1b8b83c3e60018e0d9562a804060623b4152ef38a973, 0x036c960b27997a1753c3c05ad093a9e07f03eb6cb5ddc6f5326562e7d801d7df),
    (0x06a66440f0653ba12478455ac3d815bb3a3a40a2fa097d02d0cec54ef630859d, 0x0075ea8096d8291a5ef5d2321231099b24680e0446651f9ee23dfebce3ad1d5d),
    (0x039a7f6cb7fc01309b484ec0ed2844235a09abf71496c6184fddf3e909d9bf45, 0x02bb8794d7d753d350d1e53073f5e673fe84acfbccd3d20d44422d31ede595ac),
    (0x031dcbe0f4746b881042d1eebaf7a5841b58d1a64a849e845fde3a4aee493032, 0x02a0afffa6ab68f9524bbbdbb36af0a39fdbe6a7d964ffccf0e947a7ee63f7d7),
    (0x03cb75eb614c135913d2338c4c53a17e4b15d6cb97a78be26e2fb60603a958f9, 0x0273ebc65951e22847d31eaa25e4cde6db12669424736d3b4d44c2c1fb6b3fd9),
    (0x00568309249c8fe83f9d3c3339535804bf7ee24578af4615959fb72c7de40247, 0x02afeab112f11a5bd48d8b1bb22c68e191bf3478980895f438b5808cec84ff26),
    (0x0590545de29ecb8082a74279a755fa973ebc14f3819cfc3c26327dccb89de723, 0x00eccd156287d7e1487a00a22449f7fe38fed70467a87e4784918675029044b4),
    (0x01a94194a59ee3414d2d0c13f4d98fab5d85abfc76d05961c8efe21187749879, 0x0346ab539687db75820ccb592577e7c08b6982d9db681738981eed9fc0efbec1),
    (0x0213608e313cffc2618025dd07d8e4e415e2b89d14ae10e051c97b77f0d0831a, 0x02c5abca367b2456835a547c18071b1d8cab32fcdd3784333c72fcff9e2869a0),
    (0x01846fdab7baa2c1bc7d3d2d9f22720548c86cb35a77ed32b564ca6bed867f7c, 0x024220535ba437709c3d9764d8f29b5b9c8fb6e64f2a06141a169dc7167d6689),
    (0x035034186b4743cd0b4afe092b6440aafd9fa083560969bebdb066bb386dd484, 0x011777878bc82bd641c9a51548037ed4d420190d09dd697e5b43642bfbddef50),
    (0x055e298f7cce440373a31910e7f8699dc96fdd3b336439550ea6d93aa9c4e524, 0x0074b13aa25f834aca8820548f0e2362871b8da75c6ab582f0a09b234e3ba80e),
    (0x06ae5047cc4598fdbf889f455911bda75a48686d8540c858494017fd5dc63500, 0x03817f60bc08a03712f2f0d62e716c2558715d0519e49184754b2961e0f207ba),
    (0x071168dc8a3505c00d577934cb8404cf74b30d85750eee5a71290a4811b215bf, 0x038cc70107e91c01d1cd74f0b2334b2fb451117e39f4c59ee10f3ddb16ecefba),
    (0x00b9195df6661eec4ad4b20ee4a8d52f081be4c348ce857cf5cb2d87928eea6c, 0x002b4c1780ae4521ac7b265c816f9a1f2b727dfbd08fff4248c3431efcf46cc4),
    (0x023593cd26865a81b13da87cfa43fd498fc7667b2ca433fffefdffd24a146b6f, 0x013ef986a94c0b2c3e41c8408f13c3a142f6572dc990c17ec4c2d72aa697961b),
    (0x027da9f5c357f283c2b8fdc3d8b77b7107a47878c9596972a981819270e95e54, 0x01cd0caf236e84c40f45efe1e39c368fe7d6fa6284f6e8a671bc05b6d1410710),
    (0x005506ee3571a3531b32c01ff7ae73600c5d2814fb6ff63e911be12845f83ff0, 0x03413d4c85134e8b63f9fcb251a57302e398049d34d951bd612a905643d9c612),
    (0x07f19ec46b6ac9001cf62e619a40dcb546b53a5603572e196d83d6a64de24f10, 0x01c69eac87d3bad252d7b8fc008172ba87a4c86b6b61b45862d841cc1aba97d9),
    (0x00ada50a0748f152cad57bd94eb5984d45943c8c4f614a4adf45585bfe23dd1e, 0x0042d6d2f575c095647475442090ba3bed3da012e46ee49f6b2472efcad71ad4),
    (0x054736c0cbb1b0bdd8036041e02bc76f84a7e21ad01f1417a3d449d015501a7d, 0x0162b46dd1cfcb87ddb9c3fb3968e058d4819bc7c368ecd97cf6949db27fcd4f),
    (0x070857e8cb7e706d1e42530141387553f613f423fc922bcec53ac6b56b871555, 0x031033c16b2daefcf96985b729f7c89636c318747073e78fa3f64a4428fa875b),
    (0x03af83fd6bb5721bf7881db4c0014a08fe4ba4f063074b8fa1663ecee515117b, 0x02b8ebf5e9ca786307781b70731c9fc976edaa90cb36a0ae71f0d37432e2b40c),
    (0x008bd447efdd38e48a86b8f7c8e0c949f45ece42375a8bbad34f5b4869a8ae59, 0x011f934be306bf21dff6abf6f3d34de57560b346207c83daf97d93ad537fa02b),
    (0x010d9556d32069530f94ba5d47c6dccd8c7fe610333736832d11aae8f0c41f72, 0x005db88f419caa4944a4ded0c76dba189c04e919dfa7ad45f0b5fa6047072582),
    (0x020df9104e7c499f57b47595331d97896290dfe0421fcb65d2910ea99df9eb19, 0x00656914f3c4f5de2bfe5f8306b2c76acd1531c65f2866263291ae7d83f5c539),
    (0x042fe8056bbf1e37ccc027fdf0f0baf59e079c603021547e59e69babc454891f, 0x03f076333b26585afb77c954e7982a65caca801984449af73bfa7660344fa022),
    (0x009adec676ba1946c07aa7cf8212f6ff72fa03ed1d7b795e5f04d2643fe8af1d, 0x014fd5961123dd56aae0179803dcc03bfd6461f965f2c5800c8fd733798d46eb),
    (0x04203df4165ed2ea934d3e7afac84563579acaea6b49ddeef7a39e8cac68f2ae, 0x02a4371eb14d52a189c5b3007db95213b3a6548d297c784e70a4b22ec37d7f02),
    (0x073a5cf5f5113c855636c90308b92d0fed0eba87898ac26d645cbaf0841e499c, 0x0355a15df028eab0cc7b52fe7cbedd04b92cbea4c7897dab53f73e0b1bb8ffb6),
    (0x0145a105ce46e537283cc81a7d4f35a0fd204da0f55f04c9c20b2a2487d33c6a, 0x0115242a32fd0618983ee35c13f446edc0da4ac1a08646956756489c4c2645db),
    (0x05867b2619036ffd683fdb76ccdc3b2823e7f4eaab846830dc7d7fad641becab, 0x016902265b0b8b17b8bb792ddf84d9f2218f64fbe5b29ab579d144c388a87714),
    (0x03f2e5d2b2004e1ef8ebe412b346f41aee37149a8a9a70fe6a7b555313a0572e, 0x025e4ad2652202141be26ecf39a029c90481c90e6428bd5c34f72e4994d32bdb),
    (0x032ea7d52cd7b375ca8bad7463122ca3d8f4ca337883562291f9352b652d946a, 0x00924efc10a782741f45d78953a43404c6925042d46be35b2f9c556ab58e272e),
    (0x0545dbc5df3151516646fb0536dbf0c1fa1297853d231c5e37c61ac735577888, 0x00f813e4c6a7e41e7c99cc742e94276e2aee0161aa6cf977b8c9d7637d5a5c1b),
    (0x01cbb022d67a70ddf17bb2fa319f243757aa31bad689d591f11c3529ce68badd, 0x007a0256ea44eada33147541e0fe1670cf7ca781beec0a4a14b57a80c3c5470e),
    (0x0497382d39f2c0cdac1265194f303667abf1c0bb8aeaa7743ed74dfb4d28f8b8, 0x006b13394c5b574201011c011e40dc57f1f6d52dbf2f53ac9fe8450a3e625eb8),
    (0x07477704fc1db3f881377fca038b023af8b6ee7c347e3da9a79c93c169f64071, 0x00e1daaeef76f8fb3c6946c44eb0ebdd0212ff36b0f8cb102d41db06f220fadf),
    (0x003f1ee0fe8c3932d2c9c6310c2c5e631433b9a0c0292c1a9363d8c86ad288b4, 0x01f628453c2a9071dfac78f2a77ec4460ac6d28c7b4c899572eca76a0bf08a7d),
    (0x03e4340e0773d92b076030e831361f6be16d051997cd07802b77b44c90673c64, 0x012ab7a9bead28f300ac8b20fb39c36b995b80ce2e98b39fb9c9371631c92b0d),
    (0x01f3aab2cb61c569c349667cf66051d158fe083fb97d292f798e0e29ab2ee850, 0x0332f985be95de4a99ac7335c08d59447c12bffa09e49eac1cf146851c36d200),
    (0x0018539daecb3e031563ca7f87381374fdf8ca02491afacc356343780565a13f, 0x03c845d293df5493e4fa439903b7a122c4210360d7c135910c9e294fcbcb09c5),
    (0x037f0e2aaa1b942720f696a34904231c77eaf8da3d36ebbd9e5a8d3f1aa62a46, 0x03fb5f0da5f8e3f04eea484d915bdd522ca436a832e0345f7e3f0eb87829a753),
    (0x0348d098093e3fcdf5e5d5b46a4d01ee64c37748bf822c23a8f3f0ff862c2048, 0x01961060b57a80f3931ff9def81b1650fd7ec474ed71a4cb9814c25d2bdd8a2b),
    (0x057bcfe37fd9822afe658f592aba136b79225f40dfa7914286bad7d243947d42, 0x0329b2323491e91d4fb9f3433040572f905641487929a41403407544a3cd4924),
    (0x01a4888b439229953110808831a5f6da862a44560115d0488ef02263c5a3e2d4, 0x03db533ee388102f89e59dc32b73822ff08e995244909a2863163389642763be),
    (0x01f14b751f7ab1f7e35ca95be3b9c682332e473749d8b736aa8f1c44450fe7c8, 0x00f7006ffab9f83953ddc7e2c468a9458cb57a89f95e1b18a8d4e56afa53213e),
    (0x01ae0d09833efc21095ab784957c6965c7c797477bb9e12eb8dd118287200b1f, 0x0083b457a5cb0561f48d2bbfcb218066b79d8507102610fb00f5e4b97e6dce53),
    (0x002a1eb679e3c07c179a050f87b6c9f99103667c80abd98d51c269d30012da76, 0x0212c872b8d71bbcfa683ceca886bbadc8473d373b11254cc0ee0740bf3e37dd),
    (0x073daa2de127bea4e2f39eea46db0fd265eb95054ff0b8a7f279736cce773a7d, 0x02289c9f40428d3acbeb8e6720d8d915fbeca837536c8a41f074e0ee20352e40),
    (0x07b9ef4b2d6cd6dfc10beb0864e8f88256b805e3a8a9be2af141d40d87998703, 0x022ffb9b5a5f012048ce4c95216c66841ab30e720778d1aee143825f93de3c54),
    (0x05ec969640bff6aa473070800a43017169545ec4df36abd17e16958b565ce05e, 0x01427e3e48d02b0371bf27a1357bcefdef946239d4e143982230a06e485ad6f0),
    (0x0007a8adb06a10de3232dfdc44b7313f8f1066a14f181d1e80a815e9804923fb, 0x01eb8f09b50a1566544a22fe5b1b0b1526ec0410fc65b0df91110e3bd04b51e5),
    (0x02e3467a6dd3995729cd2bc364cafbf99022bce224aff17e123124a4dddb1c3c, 0x01463ecd9a4231721eccc7e0bfc6e5e5ad443f653e1923a2565a18ab862d55b1),
    (0x00e8430f85e311faa85181efe941dac86fafc936bf57fb6a0790586101a1224b, 0x00367146d077cf06e806d002946cdd226e18880c8bde085a97956284b055c8c5),
    (0x02d00787799d80b66807d8a3d5c3d92c0a1b4a931bb6b25b1935f22c90d063b4, 0x020f01955fa4984e21ccfbe9cb37c1a7fe8a472de1681d8a1313375482d4c19e),
    (0x05e1b6910f988aa91f1b6f2859ffd6d742c629ae2b003fafd58f7768b9ff77b0, 0x01282c219e5e5fea603f7c3b8010772c57fea147c5a7923a6ed3fb822be263ec),
    (0x04be70267b200d1dcc5bf667b8dbb6d5379135fcb5b7de7aaaa7ed42c058ce15, 0x026d8b05999ba69540dade94017fc1e6fbc0a75b586792cf7601d382b94c803c),
    (0x005b7223584d071a6b16d3fe40d68d624fbe71ba62f5d75fe4dbc1782b4a08c2, 0x006cc0f10d752d7d27477ad8a53b1adeaaa1ba8a90f641d9ac34ba741f590278),
    (0x0500e12e3e931d94ad41e70af6bf3964dec0c4b4ca28aaf2f402eb97dd0d38f1, 0x01d63eef739fd3ccf622dab93929516387c7aed4506740277b595f1d62a7b58a),
    (0x01adec6f29dc13827b2593f100019245e2262f98f613b27cd5d655557ed2d3c5, 0x01d68272866e741fc7b5b904b985b686ddb92679c41f1af6ddb9e1959840b0a7),
    (0x07d9e8798277276de428a89255658f0412db682856229a140c9cdac83c74393d, 0x01b25695e23ee5e7533dc9c6f69802be799799adb4026548c9a7e30be50f1b70),
    (0x00fa60748663c7792ea0e046ff695114351f18041dc59d02e5c40970496272af, 0x020d3b8d4548ff5ad1ee70f4f23182209ef995280bd0384f72a0f0c2a661b1cd),
    (0x04d1eb98f30c75ce4649aae8c0ba636e99fcfbab8cfe22c9a3e522da738669ff, 0x0104abdf1f0707703f8a84af84225e07241dfe6194bf341239fa3c4e225ec098),
    (0x04622be97ebc72adae7a437f951c7cd223e33674bf84dc4c8adff8fbb4ba633d, 0x007c2c4d9d8e4c6c8870dfa29fb254b729e2b13050f22ab666c2c74b8c043ac9),
    (0x06bcf7430c00019c282276696200a9d51d04bbf594bd5ef3b102119b1722dbd1, 0x005a4248eedfa549447d5f5795c49e18baa6e5a8ef66e89ab308106f142c0d3b),
    (0x07985c6742d649eaa22fcc64baa0bd946567dc0164d7a4bed9ce51c720a2f6cb, 0x03cc381671cb33456ac72ee29a1b169374bfbed013b9bdf958ed5ebf1ab40580),
    (0x0397083357f2d245a16ec4fa88acc3f1f4a42d352a0ebca82c15ab8ffb260ee4, 0x000c91a35595a6bb1b3c50613f9d92179cd9a09560ab19f8000c3a0e0231778c),
    (0x06fdfd3a16f532e3bb06147b8412f50c92cb64696ee90df6a584487e26640ce8, 0x00d9d6b6544e57f08abda4bf28f306a01fc7baea20624f69dbf86cac82640a9a),
    (0x060fb9eb58a14178e328a27d4846143e1d20617d4c5691989c0d8385e9bcf5fd, 0x01499fc6fffeabd2dd0cc32f37a087a7c23876a57a8e24a3dbf3660838cc2827),
    (0x0010ee4ff729d78582378493481cb52c3cf5b9c9516e2eaa3b9ba5b4af58a8c5, 0x037b663842055abf5ea05073b76b44e5e1e0bf6219e7ffb73f4f920ff0051e7e),
    (0x06274dda6ff42963544b1820c9755f89696aa0501711fc00548f40036b10f6ac, 0x028a1b47857c6a572d544704ab5164385c65782d3146276274ee875caf164915),
    (0x0419b9b210c7c8c521e113b8dfa850e5ec3cf8faca12981e61d7a5fa219959ad, 0x03137e62ba9ce383201c94bf091dd587098eec45a357bfd3ff4b9ffa6d207caf),
    (0x062803675019d91788f6d700cd59e28b7ac046ac0951c88243fd14b66ab83a57, 0x01333e2832e8e11244f60d21454e41e7de6d20bf822c7651f05b1b80ae22f39c),
    (0x02802d2a3b00df159a9a431eb05d79fa0655a8867eea6c7a3e79d964f089ff29, 0x0260243d4da1deffebe10a182634546487187ae8efe0ae74d01294ed78838fa4),
    (0x006b053f5f7e7935f9fe83d5756ffe6d2de910af7c2cd61dc4811f1003073189, 0x03bfa34d96274577d04e8a4c22cbe3c3660d49035f899c314742df32d94e586c),
    (0x04f240c195474538c36e882af034393ed918758ef8d7d72d67906f1c2519b95e, 0x01c698f429c248be36b3c038932f9fcd1aa26a73250d61ba3f63ae62a1eeca13),
    (0x05c9b7161516abb8c0677c150cd80c994852ac302c7f388ba7337b79b7aaa698, 0x02967285baedf5aca4eaefc6c9015ec2b11727ab5d06e01d5e51e3a438f36aa6),
    (0x03154da379ee94e4f167454e8bab75f9e907b0f4eaf026b67092ed0912a21ff7, 0x03241dddf30e4e7ca71bc7e440c25c39e5cc7aa648cbe7a49fb9d05fb82214d3),
    (0x008aa4503d02f5d96574c07dfe47ba143576bc8d4ee58e435dff6bc1fe3a307f, 0x02918ae4a051b439b79b638782a4261c06a4e972719aaffb010c6991c8d79ce4),
    (0x02f0cf27625163b105ff3669a8bf16152e98aa21bef73241036fb7f1ec2d5f8c, 0x0072b6a69aa4b6388ae3fc810084ede6b04bddb65ecbe62030899058cc778473),
    (0x009889222c19789f2472f143282c06f8b83298591d92aa8159304c6da50b4d7b, 0x029cfeeb0abbbef301ef060f19a4713f7cf469240f9b0ae9545d5185d51044e8),
    (0x0236ef547f996b8514b51afff4ff318a83a3485b44f06f85a7f530f6c07353e8, 0x0398ff05cb3f6e7b82bf1d2a8fbf19bf0707495755dc1291e74596a0b7eb54cc),
    (0x03e48269503bf283707732dd31fed9a6f811ec6647678eb85a4239d869b8de9f, 0x03628a94defc462e89b813bf4b1f271184aea22403974ee9f9f6ddea190689cf),
    (0x0003daf40cb09c8ea803f2062c5b7445275740c41af5dc2cd4504834832f334a, 0x02915d4a7a30c70a0095c58eb9632090c81ee6a58803fa0d562d5cd608a313e2),
    (0x05193cfd984dd35231b2f93caec47622a5e61da67484b7f0165a72036b5c3587, 0x0253ae3b75172c6874178b86d7565ef75846fca8e6916bd42690fe620bd62884),
    (0x07b9ac09cc2c4db99b845ca070874049bf27b1b309b48ef6befb0bdb60d0e7b8, 0x03bb9cd93d09d4f87b989dc68eb90cc2c847a5acec13462f3e1f9eb416bb3e9e),
    (0x049860af27c534d61758bc298513d0e95eb1a33c4c43912a8f8f8de8df4c3f80, 0x015e12c6499093acbec2b666be843257c73cecf55df3a33dd01e5df712a341f5),
    (0x001f2cfd555b703defc61fcff0ee87762981c2068308a32ce49170f1efada882, 0x03c102b1bdc592aaf43107fc19372d99b0fd0ad91c31596463215a187a8c60d6),
    (0x029cad7525aff5972ba4ae899f55b580854bfc89c83ed0fdf9828459352bc450, 0x02650afa537ed3ce796bd4c6ba78cfaa32a1e0f943afffc297c7a1746baf8380),
    (0x0793f274f074dc0d0049a05bf133f927d85a5b51ff6cae9577db21d343bf2af3, 0x0067552159e6ebf698a598acd21fd5d4266c18d989be0af930a7cf05e55151da),
    (0x011790fcedb524bf397853b8b0a5ed39e4cf00c47cf165bca10108deae519ba0, 0x00404405a37cf8ecce097df5b21e507db3f038c149ae9a08dbba50ac4d3993f1),
    (0x050784a5563e9a8458d36b45f03f60fce088b71434bb6882c53b4b4009f71d7a, 0x005bdf2d7f659a1fe0353ac92fbb62f6b66bd019cc56bd2b8d4779fc8d134321),
    (0x02523d0247f5ed96f5ac86fd89210ed2a2904de1592cad5f2f9b89ec9c3456c8, 0x02d0b8f9febf92372a179b5b88c5eb15d14cd343bc94f7c437b6818051beb054),
    (0x025bee14aede135b4abe494c3eb214fa28542eec818f7834b19c63c563a1089a, 0x01a11a802edbffed9cf99df8ec79dff58deba75ec1544b48fbd12d764fd95b9c),
    (0x00d12929c7761e4aa7b8efee903b6637a67bc6d885b93ef32e1656165ce4bac8, 0x02815a60012cc166ff2f2c52aa35b1baeaae9f36a99c15d5bcd5cef9433b2262),
    (0x027191cdae17010f989fe09417fa823b062589acdbce4f5493fd9d4a5d4d5028, 0x016d9047fe6a417e9acc764c507bda8db98d6c08b030d867b150c213a4578e0a),
    (0x0614b713cfc3baa9375d01b9cd9c39966add89ef7db24c56bd26a7d5233b63b7, 0x0207a5ba37fb479b951d28d6055aaf068d2968f227d294729cdd0eddd145b352),
    (0x063c492f1a37bfb92de7fa2cccdd6b29253e0a8a3e8172ed65c998544d7575ef, 0x02827ee6af3f889c1d0db2bab949387c90829fbcd3c1523dee999e30833bfa22),
    (0x0462102edabc7fdaaafb532d0de6d01499d6d2738218c7980a7f4f3c44e7cd13, 0x0114204406abf4c47bf19adeaf0246340d1cdd83e31c323ae8f4cf8c1f2a8ad5),
    (0x05293f4e852db1e8f804b64f79f1332ed8199bbdfa2b2185a397a8b7e94c66eb, 0x0251427a214f56072ce47866f01fe71b439c4ab01235cbd7df59c2988a555d95),
    (0x05035cc9489615e70c01af3cfcac6bcbf424d70f6547eeb8771b9c424304dea0, 0x00ee694e5fe786018758bc9573b8d280f21165651a01cc54b428ec9a0ddc9023),
    (0x0291ce67245ac802ba55a2680d4dda17a14dbe427ffc59b4d01dad234a38c8f5, 0x02de4539f5f3161dfb882ab742ee35576c983b0c8b3fef389c48baf1273a699b),
    (0x03e09c31f4adb4a9aa5e3c9308db93c7c278fd24fd2dd31dfd7480eda6c6949f, 0x00a5c6adbeba0f29340e40ef7dbd86727540eebd047479b08850343412df0ffb),
    (0x00192b3df91a84c4221df56667fbac74f143086b0323b5287f83f99801f616f0, 0x000ac0a4a70031d4b9f5eb7c2d044eab5bb6b2e4a296559f2a8e9b15e50ead6a),
    (0x015cc3778ef3bccd9f624a40e54a2c129de824e4edc8dc32be533c6ec58fa1a3, 0x03df3c7f18b145ec6fbc0a6ef540e39c57034537aa5335f3407f877254a5461d),
    (0x01361a320505be375be96610ce11b83d168d381558af96121e5c19bcdab84989, 0x032aada5081aae1e2d498d588d991217da17c742c50fd605fcc488ba87fe6740),
    (0x04aef12477efc9b73c30df994d9d6ac5312b7fa06cb00c0a554b632db6f8bf9f, 0x01c9686f4009eb65486b0c7b9f68cc50feb312157acff988802bad6bd5f134d8),
    (0x0538b41594672280920c79c6d8f6159a84090b816f0ac7bad3e0612a0f296564, 0x00d83d33e61e373a93742c50aebddd34076c17ad244678d5f28cdff373e2cb82),
    (0x009c94ddab8246060e9212aa9b332faf5791a1b3d7ee2eae07cbeca416b166cf, 0x028c18a4b369987195908f311e44f3a9ea06d7ed787067d7238c2f670ee2cf7f),
    (0x044ec75843b57fb81036c6035d53ae9663d9c655e19448279d1cc20ddc2cc421, 0x000503805e4a2e80a65ece6f1a129231bb96f294e9f29665de13d3b8d76f11ea),
    (0x06b34dd128cb251a5b4bb22482f127e5a90d1c4bd07df2eb919241961c6d7b7b, 0x00accce65064cd4fd4214fc2d60c5865257e9e5b32579d583dfd8560bd97724d),
    (0x04448e0fcdf93e94944b81f7de02b28f070730ee64bd78ed365d032f76b6cdac, 0x03fae31f466973dae115ac3f5f3c36e9bbbaaed3d6e27dcb1ac077dcbec91f73),
    (0x06350a1b0b22cf89164db7a9517e4d366507430d2dff83ad75184537bbc6f5e0, 0x02c07b3736397a3c31a8a95aa990c92881af3749d466f3f09d21fec26de273b8),
    (0x00149481fb3229496c2807ec6427c27467bccc28a6881a4fa1137f1bd73272ca, 0x02852590917167d7d8189405ff5c64d10fe0a4ef2a2a10336275e347add9b3bc),
    (0x02b45b63a9c3bfe28314cead74ef372dd502845ff3046d2e9134ed94bc268f44, 0x003401c067cc17f5e704690a68fc42284ec51d06aa5d85d355d3d192c369fa88),
    (0x0125dc05dfa3de8ca810b5d7aa5d5b638598007e764b4387bfa93e5034b283fc, 0x0283087e98cf9abc8b253ed05efc23dcf4fd8f6439b5d1f4dcbb47f46768c5ac),
    (0x0781ce668cb43a010667a7a6c36d66b2ec7bc51ed57d0a9683e6c28947134027, 0x023f061c691fa1c7e9fc6cd3ea8331cf9d4bd8969637c0fd84317cb8d7564b01),
    (0x01145b72495e078da7940ba5e62fd31c87a5688e76adb3597a946e8e651fb336, 0x013573ec362cf8d73c10df2d7001e8096f7efe675aab1080873de84e43a8de4e),
    (0x00f452ecf1f79436e479c7d0b500da10c6fd23a77384197adaa8d8f6cf451d2c, 0x0301b1f5f50880d6a838cb3ae71d584c10facc07722a8fad4260f9d22fdc5cfa),
    (0x027b82d9fc22aad67ab065620f296fef3afff9e66e923fca1527211b802f7b54, 0x0163b74f8767358038092ecc448bd74220a8c279bee7c6f024db051fba8d7e1e),
    (0x01448e006bb14044015c5525ecb4f7c7e9e1e8df08fbb53df4e3d68537769497, 0x0302c69f0c33676bdd50572aebd732542c880697db942217bb0f3973f54b906d),
    (0x04c848645f9f1b5649463153e7720ca6a05ad20c6a1738c7a5326fda716c6fc8, 0x029b87e3b73f5d2feec68f8774854e9c7a5aec5d3bb7b9535d93308e9293ca43),
    (0x047f9d92000b9da0c01ac5d49d04b141ee6388962b5ab150d4b36c72a10dc2fa, 0x0087175c90cd082e6976d7ab1a7b48224d2145e0771ab1f0a85b6f0cc8c19b95),
    (0x0776257cbc540364e6c63a02da0fb982dd38444a5bae99dda68a71ec1d3ddada, 0x03db95b45f1429b1996492188132e2630ba3101de0fd4df0a409dfc27231a181),
    (0x03c17d5f64800ca2d5e9d7f6982299ddb3983fba5937dc3f8800c39f3e2c1a9c, 0x0238a2919469cb05e68bad75343fa54fbfbc3e9eea7f8fac624d444d7c4145c2),
    (0x06b3acf71111be0af766e47df3a8d46ac1b23397d8d822d7fba4efc2c0e4ccbf, 0x03c4c168a99c04f8896329aded4c5152d8a68e06121e25f471f4f55f2208053d),
    (0x0550d9e53e64598503e4a9c6f7111cba6af0754776dde52c12da55366cb61eb9, 0x02b5030dcd4d686f27418f612757a709e4d0362aec81098d0dea353e97491c00),
    (0x02a3f1b5d9b4368ad496bd91bf16de37fa34e52e7a0ca6b058ec30136e20ec54, 0x01e87d6c6268a9cef609a889ada25de4226255bc691d63a56da36f469b158a23),
    (0x007a6e8833e1a59cc49d6e62a9775bcd00246a9a14cf0924936d5128cb0ce40b, 0x03ffae4943350372bca147924263768062753493dbc7d664513624c02ae7830e),
    (0x0110478ea673fdffe4164bf4f5517335aa185e8653c50bbf2c50d3dbb17c1a96, 0x00790677f005d29e2a82376bd08b641ba0964e3e7fba1d7c0d0cbe6f693618eb),
    (0x02c773be6130b6aa8a72a95e3afe0252b572c979b4196611a2f9b52dfd779712, 0x02ce027f08252315a3bbb4c1eafd6c9d361d6527955a194c2947e6f5dc2145d3),
    (0x0209f1b79de6749e4e54906386d6384ba9c59a63cba270b7ce98c6ba080df3d6, 0x01d55b0e0f998c6c885710a1c1c514812c25b110484939e0f0c734433fef9ff6),
    (0x017bf05b850d6f7c3c6e8ea6f616c465423d54949c63f8bd688a16843a975945, 0x0008ac3dcc1932ff76adb73cf7cd5c6fdf0e0e2186dd59e3bafd7194095bb004),
    (0x06ae579ae56984305c61dddc3b86d3fb4a1180b8ea7da84522fedffb7c7279bb, 0x015250c2dfce1be441ca09d33b50f068d5857f9ddd5213ce460fc395181bbd5d),
    (0x05a18cb39b3766783fd3c619982a59080153bb7be74196668d0ee832f79c96e1, 0x03393108391001e6ae9621c7953b28c48c832b12c132df70db4aa289cdea9fa7),
    (0x05bab61b160c623a4ef4b2f20dadad33bc0f084a27690863e89f63137c548d0e, 0x01a48720ccba65cbc50e628abf79b941458ef3a67e9b8cb8b26cb185a33344c9),
    (0x060e95c353d75d8e116245f367f33f32b2e5bf7d00061745006e7e714e68809b, 0x014ee6c313ceb11ed48ee677af7065a87ecf3d602512f6c9318cb52568e23af1),
    (0x05f6e9816b504504ffee341098d06b488e1659beb2d982cf475a1e01b6ae8c95, 0x0011ed7380da1ffe07d3e6b9e7206e3c66b3fbffdc5435a39160513d2b6a38f3),
    (0x02735aa72e7b1a12633a911eeb5625ece89573d0322c5a875dcfa6d06c9a1961, 0x039793f624051fcba61f6d76d27c46e376aacbca645a11f1d2f97a95ac44cd53),
    (0x017d265332e1742ec194bdcda202432ca7462b022290538400634d40d980b7e4, 0x00413a04660b681abc80f3b43f543cebb3f74214927679aae2531292650d4ce3),
    (0x078d95fe08a202717929cc6dcb1025b21444f44948d35eee0a7c35bdf4b4cbdf, 0x0040d27c27d25a3700b60a042fad2806cb3b77a72844fe16f9ba5ead3641773a),
    (0x05a96593daad6104a0d427de3f913dcb265cd6796ff5c0d6e824456c8fe665b2, 0x03e4dfca1c075a53dff8cc0a81c9402bcea687e33c1cd4478531914c7a6c537c),
    (0x066d1749c7b1f99d1938294b1bad1a4719853bbfb9398c6a0c074bb4c0ac735f, 0x02329b8aedd068face979b935d9f4bd2d86818752f07892e20a6a8bbc12f4145),
    (0x010b15a785935283218d70415c8c684e4e4be6f7c9e3e560f154e4ace7e9fc0b, 0x0154af20ff6493424e880ab39e97c8173bf6efbd3f01a8ee7f2b7b7e4c52ff5d),
    (0x075bf97accaf63e1b7aa077214a8e6f050ab5bcd79e8554592c2591c3591ed4e, 0x036e56083def993b06b237b7bd11aaa3dfc9144740c97721dedd708a26bb8e2c),
    (0x04391b43aeda01cbb8067a4c9c3007c9086c247eb20f605dec20b7a3759a5d1a, 0x027c424a167cbe5e8e7c23a7a30dd6f8a8c686b9a15e30d462a4f2d8612ae15c),
    (0x039e7b14c4fe5b1220bd6de02597f90ed345eae3560f5f06eb7ce59e1c29b55a, 0x033fbbbedab86a254f21c8cdcb9852efe20e809aef83c9432d60d4e36b0c1498),
    (0x023505446e0fcb59e85bcd9cb24aa17e275d7e4e6c3f5af2c2984977a3633adb, 0x0132b83aa4e08c969315238fe1e89250932cc64d15402a5cd78135c0db3b746c),
    (0x0528a41355f610f31a9cdac5513626cf487065304443a2e11f3840beea8b0ad2, 0x00d4288e7a5090a0417d1923081ee45030d1f2cb0986cedf534632cdb5323f7a),
    (0x07927b4a0e8b3f6033f939a6085fcca27c4f5fab2ed3913b0ebe244c824d43cb, 0x03b7d649061a04c3ceaf828ae1a2bdce0de3aad1dd00c8c63b7341cb3b3601d5),
    (0x013131321e798d54bfc7b0eec5d2d9b6af7c66e8953adc650271714e4875b030, 0x0225c946d8c0389260743bccb0243ba80228c87efc839d89b77fe6e9eea81d28),
    (0x0335182199b61fdb519c9bfbd69726deef3711dc6fecc88c3fd2fd27c4881353, 0x030afa6721f968d7ff3c3a9d1dae8282567f245d2c2515c34d031848ca70bd38),
    (0x0221fb22ebb0ef617429aa90e11814ea9dcec7b82c3346b390548580908b3256, 0x00aa50cab812b7745a5de06ae392353c99962794c1106abc923942fabe21d6c4),
    (0x03f58a6513d52201d72075863d0521b414cecf63bc284226b9f8dd4fac1b0eb5, 0x03d26e1c5fa187ae19f6a0d663481bf68bed6c760a20f71597180f95b856c7b4),
    (0x07d69660e6bd468a73e5491fadb6d64b31ba5d640ce9410161d0fb4f393ba245, 0x02f3ca4332ba9910ff4d5c7fdca290ad0191d5044e68f2c7d6169fe72316dd2c),
    (0x04764bb058399a5151e332227af814783a1f9d11aa490da11ac8b7c55b470f23, 0x020066aabb3d3361932f4df5d57014dacbdf369eef4cd6752e439a5548f7a421),
    (0x06803fe8c27d8e096fe21540d8cb6f31aa79f66b9f0c7bab83d0bff54ae3c479, 0x00b2cbfeb430b26d950a50c9999028aeecd1ecc6316a2517ea28b95f68c8dbe6),
    (0x0432f2c2caac4907ab4d8c0395c4b913476affdb0dbaa2707ccb5616c51c9691, 0x0140c73d83ccbc48be24f9cb0957bb2a704c25c8fcf822851b0656ced1d51e35),
    (0x012920ee31174cd4af2d59497a23c972a82753acfc14e4e5e4e6bc6fdf334b86, 0x02931cd90c2f479bf6e0a0ef7c04023580e2f65a6a6971d58e636fed47c34b69),
    (0x03b54d9a831f8e0eb8f0d4bdb504513f1798ccab2eccd023c0c850846f448a9a, 0x012236c98e0c9f11e3a72be8fde9336f14760288731feace737831d5da148883),
    (0x04794fed1bd049b723f2cf733461ab79a378cac3e3f364e2683b22dd68055838, 0x03c53bd2566eb206a72ad813a5e9a9b82c77dc6d477bcabdfa6cf378eeab65dc),
    (0x0163f53947766190060280f8bb7988598e38c8fbfe65438f529165e10c30fcfe, 0x01e127dfe62a2166f79aedec567a4f41e51e5f6da99d8863de18c437cee23adf),
    (0x0251ca65faf1146010f5cebde7c1afeeca8b60102fc4dcdf2b80c1350ae282da, 0x03ec5880b1654c5ac7211ef577e2ad376f6dba92fe6b283a748058721fd53033),
    (0x00ac99dd28f3178481092059a453aee2279b875d5e95a507fa4c389f172edced, 0x00359911f230df0b7d218a984dece148e72f9e3fa17c8f52272533278b5e26d2),
    (0x035076f08953e4264ced3132094b439ed134db1e22cb40a99a1dfc0c6fa43bf8, 0x03e407a8870e1b960881930299848bbcc50ae085a5a18511334d15ea3bf718b1),
    (0x0195de272f70276bf303186c31a9248d63ab0928bd6f24702e3d5a96eda114ea, 0x01f18808620644b9adfe27835ea99af6e79425e5fbd7accee73d3d4e95628f6d),
    (0x061d40a10d88a0631c06db40bd073345e7f53698756847049fd2af3f44025db7, 0x03b278351d6fc66d42fee17b7731ff9e3df3d5b62607ca33ddf89f37eaebf24f),
    (0x07fd45a0247144d8a82260df884ed2d700c004755512dff068d1dbae818193d0, 0x02d0be47eb107c7e13458bb1f774c02193519bc05188eb79a303db3d1df8f966),
    (0x0473d2893ca9d7473941366644ae28e0fe0f9a2aaa850844888220d9c7262cdb, 0x0177a77f99fea4d2bdc09af5d997532fe99811416ae817b47414c315f1fb313e),
    (0x02c1b7ac5bb9e1716dd0e3bfdb7dbc8d8c93ac35008fd9525226286ab1d6d1bd, 0x01bb341ae09a25ddf74ca4a0b0da6b894991f672cea955bd70e513ab93333c1d),
    (0x07d2a728ca628fd159ea36200cd1d26e778ba6f0da9b3b93b52fd7aa84d2eec5, 0x01bc3932bb955da301e6a9f1850ccd3aa7243302c0ba5d6ed50addd04fca8c14),
    (0x07516bcc579c2618426086d4e8bc7150c6d6e50fc10f2d4b0baf5acb9d18d193, 0x00e1ccf73b79b333bdca74145e5ad7b7016e55bae838214a7c6fd0b3373d65a8),
    (0x040443d8dc6178ec48ed611294b2eada8b7d89e310db7fd4fc995c4569826cf4, 0x034de07fea32b5f151d64ef16c52b1cc5e37f0369494cd3f9a3862a92eb65fb8),
    (0x00dc2969658bd20ba541cd85bf00c82c63374ef35860c73e27ede8b8f78bc386, 0x01e46692c1f443779b67581cf322a032f0adc5501203a8632ad21d73cead5f79),
    (0x06240eb2a837f465a300958d036b054c95f10f84c316821db3bdddf4e99c8046, 0x01105e2f7b9193fd9d140b44b7261d4ca215d239996a98ef32a910ca166aab76),
    (0x0342a92b67440d835b2c1bc50defb95d24f9dc30497715560d12991c84dc586b, 0x03454cf0298a69ceea2a7f9cd142d8a7aac47f8c86f6cb4ac7e4746f90dd740e),
    (0x01da63a6d48bea68dc9d7f488c7d840da9565ce0e4238406591058eb54e176bb, 0x0240c3958e1453cdfd8a75a953338c509ec1f5e5d5a90d441805a14348015cfd),
    (0x00e8315c356f040df0287f0f40d09728b9277869d3e53175cce8832350ede93c, 0x018943002dc5d0fe80ac5f522c5373992bbabb5bb6aed742b0dd8d9df6b894f1)]

/-- `SHIFT_POINT` — pedersen_points.rs:28-31 -/
def SHIFT_POINT : Nat × Nat := (0x049ee3eba8c1600700ee1b87eb599f16716b0b1022947733551fde4050ca6804, 0x03ca0cfe4b3bc6ddf346d49d06ea0ed34e621062c0e056c1d0405d266e10268a)

/-- `LEFT_X_COEFFICIENTS` — periodic_columns.rs:7-264 -/
def LEFT_X : List Nat := [
    0x00a74f2a70da4ea3723cabd2acc55d03f9ff6d0e7acef0fc63263b12c10dd837, 0x00ed021e66d670608d65fa55597c3da99e143e17bc34a01dd32b352a028ec839,
    0x05c8707c12896aed50aed74ccab0e11eb2bdf909946e6b6e81c0d2828b476496, 0x04d2550233879ef0d7b5b954d88534ff34619e3ef9d4aafb04d4d3d6695098ed,
    0x023d3c5a0a4937c2db8384f1ec9c8a50bf4f8c8398462576fc6dab3539ec755b, 0x00293de4c0b03a5f72dfcc36a2426f159e42229f10bccb8fad1e85688b854173,
    0x01632e11ccbdee1b0cef5064bfa964642d95525b1cbba2da3b7d1f643d299ebc, 0x074bfd772feaa22b3488b0b5ec3b68ecbef7ec91c29739264f67071222955e2c,
    0x007121b7e548cd5850feb6534d599be411342e9bcf858cc036c7f3a78359bdc0, 0x07c83a09664f16634d039af747a439c966cb826e1e6ce56fe2ca32fa95756b0a,
    0x03ca9222a4e764de5a0414db0037f36e95aecf04dc9fdce9df0d40d98a263136, 0x01750b281b640e2264f37b7f80a74fbb3d29faf9b73cf383f4e88b3b7e998779,
    0x00831bf753892914f58f1511f69c950ea2853eff5a1787f9e80cc65e59633c67, 0x02d357332d061d578534a3aec19f71ea58b03d7095c63241042dfdaf332dbee7,
    0x04c4ba96d27adbd92213f6bbf38cce6005c4557afa50866c0d2d4274d886fde7, 0x03044a9dfa132a11d195a7b46ffaff131941a62cc5e675aa30d8ffb5c0b36019,
    0x0659fd39e0651a2d1622f524ce397ab179b2ec9dfec8c1076fe2a8c46c00ff42, 0x074d5503bfc7c28cb08e2f8bfdfc65ff671f62afa36ad26f6f1b65d7850369cc,
    0x03b91bb1905ff60ac5068e0ffee9f3a35977a894525717a8c9ed600eb2a1d438, 0x02744b08fda6c05cf1295f6de7355d721886dfc77476d4ce36a1736c9e89c5fb,
    0x03d18c0fac30b0ebf20b3b6c1c4b7d82ab77749a5f7446221b188fc38d2836a7, 0x07bcf3a1cd6a4bec11e215f814fbbf69e634579102e0220eb4db51f4d158366d,
    0x01f1ec34374f555a4afc97d09af1c010028ffee0833eb0926dbe43ee96d1a258, 0x026092f7fde398226a4eff02a59e35d2750270bf422c5c47f77c8b994e6e2f00,
    0x042ffbd55e2901c42570740e323ca7ad71df18813136584f4696836d4b70277c, 0x031681ead57b167f296b176700b372f3fb77becfafaaf29a42bd61d74b5cf839,
    0x034096f164304059300aa25d050ff033589e223d220123a85ac1b34959c87267, 0x00d4ded3b2ad9e2e47ce09396ab294c35b05f7c4335e3a37dd1cf692d99f0a0a,
    0x048b9714f4c55b27b15d861cc4bec8bbc309d9f53a2abaa271f98eb4fe4aa26b, 0x03751ed12cc60ef7ce9bd757d35484f59b03097c59ba5c45036b65750408f483,
    0x078d5ccba44d6ca1b78f5943cc7058f2e31b52dba98903e93cd26b9eb73bd75a, 0x038ebb3a7808e92a6f3b4484d5edf5ce9a0933e1c95dba2b5e78fab8fcd1478a,
    0x00b642861538fab992aeae4b4d895f1023440975345d0a5f8bf5554fbe997943, 0x03b8878c7490a57720d7a12feebc3464dfcb9a0a333761f0b1b31148b924ef1b,
    0x01ac69822b7f18d026fb66f5d2fd4b9f131bc3df1a71e9972ca461bf4e3bad83, 0x0346a7ba290a081302abd258dfc4efc5b15d42e792434df73178c63561d2bde2,
    0x073904d320d9beb16c2f949a2b97efb1f3c89b8fdb96dd3ea52643b012fcf35f, 0x0533cc56e887dd229a70223207e039681752821e5776b8c52784c23acecc3505,
    0x06ef60aac4b7e261cf69b51212fef2b8c36eaae6ec8aebcf386c153e1525831b, 0x0753bed1a2af9e00dd8b11e098fa49b3697c41cd8e8c2b7b9e4e9b9bc5ccafb9,
    0x00a7a400be7e52ef9601cc8798882b97fff855ac7ae8c0f9b3f9883b951fb57a, 0x01b438f43354a06a8a21c4bd09cbcc7c3dcbab899f464e8cfc6249946ac3b742,
    0x03e5865adb4110c8b35551f1ff356fd2a46cb5a986ab2a823b610d23d24486e0, 0x065dad862b6410a140d638d7d9106239b4fbcb4b6fe5c2d707b70ab097cf1151,
    0x0655e879e220d013d3d31d2f317c424322591d14f94148abf5cc1f34860ba86e, 0x006f477070d30b150b98f871bed32aef711856e24324f7cf62d15ea35333c7b0,
    0x0593a3ecd5ba6795d7ed9842784b85b8e7d9bef76a3eda0d688d35d98165ce96, 0x01de5f8a47945ba0fd8cd8e9a3bf563e940b746a1dfc2c893566c252b230c496,
    0x029a23e67b7a265242982f5e09e74d443882b71b6e7e2df59bca2208e0a89b9d, 0x0446c63fde4e4180a39c5321e98873f4acd9898ae84219b2e0f8601b573c3406,
    0x077a9bb14b1031021c80770d67cd3a98f37250b46a2559f39fec72d0f6f2999d, 0x075364a4dfa99572171b561a8ddf0103fddc33d66eb85a7feb5ec33feb1de170,
    0x016a40882d59f97d59c4b9eeb5d6b9476e10c6807eeaa712a4de312dc79bd0ea, 0x05e030fee6f6366c09de0702f90860a2d651332d790fce53ccc10e6aca6afa4c,
    0x07577a214fdae34d254429f79f6575de2a4124d7da2de032d78d01f3bd640d75, 0x033705af636f06462c246d7b00a46a01f0972648657df19807f7283eb3b432c1,
    0x0379bd4d9842c4db69d26c986353f5b4d59f912793beab5cebb50537bf210c57, 0x019580197cdab83f407746d5f8592a6a9a42ef4c81a0ae9137c52c622c72dbff,
    0x01c5212fff50ecb2634770718e1d0332c7a2219f8cbba14d4a5deefbd025d9a8, 0x04a10fe8472f4c4a48eb30a26c8ed45016d5e53ec216da63adcfc868872e2c18,
    0x04eb2f6482f922e2d90c1d9df0495b6ac67342b40f7662e201ed717e9cfe8663, 0x0014a50583be4526a55ab154d4dd463b26b55a6dc9d0973582e1470a8faecceb,
    0x04eae53193f3efb0c1e732f36548254e16bfb47ce75c1ef3bd553d44142f501e, 0x03e0d6dc8f543b33592f54bf5a51f686f7877d76b73bb4b3879f04c3a2417c72,
    0x04226e3091c0d5c5d2c8db960ba8782498d04b8ea27b30d6d725d3b355318fb8, 0x048cff91d2a6a98f17f5b0b6ed489c54fec59402060f4a34ea3662f7cffdefc1,
    0x038c49c598516fc4ad4b1ef0186b3cf4ac0d308430d2c322a2292d54d1eb062a, 0x07b987f67d23e03deaa818bd32d9cdbe1c9edc753b1035bda12af7437655167e,
    0x0290d997f5b6010315904fb6c2d81d4dc2199b1223773b3883f5e432f408c81e, 0x0162e24764c1bb4fa5f66497b13127d0d32c4fd609075b0b69447880fa0ece9e,
    0x01ce90d9d258b853aa76fff454f56074ea394c46a8d79e01cdacea7967569349, 0x077714979e29bae677b2da9c2e63b4236cad9d99af0e3cb08b468a7ff7c8f104,
    0x00d576c461448ffbf726cffd161f363dd782e413eae04a909adda1889ee69310, 0x07021f6387584c09bc8d160d43a7d1810c1def6f8c370efe53a56ea42e21775c,
    0x02bab5d534646f6abc1d682d25c6e96f6e368eeb799cee9f5460d8fbb6c7197f, 0x0471be0aabd6943fc47bab955497890de301c7e9b7fb970da50a25b83103737a,
    0x044c8ee29adcb17e0b1e0a0bbdba7d91b12949549c8605a1666aefbca3eb9673, 0x07146de2c6d21fa1984aa54cd94305fb8f8c07e25fec94c2688abb6df665cbe0,
    0x073f7523088bca4a78f4c3e4664e11fba5d0b30807fcd606a7e942345b6bb2db, 0x051d08a3da7127d517bb964864741c853263aa4f2ae50999dd47afff767eecad,
    0x048a3888bade3bf6fe309eeadd59d13fe485d92f6a270231bc96e4ff47a1ec6c, 0x02713b83c5fb47cab89498b1975ecdfe28459e2a407a3d3e7108cef62d80d3aa,
    0x058d0652bf1ae8c01be8800a8f5a5ad714824408b2e2a5cc7cf266914d01ca68, 0x0321f127ae1c799cbd45908d7e40927769e6584c5880390f69db411bf1941d9b,
    0x008990a324b4aa1777db32d07a8cb4420686f4406fc5c4b904da0827987ae675, 0x05f8bb2da7edd6778c634efd430375609fc21677576ba7b3323cabf42a9eabfc,
    0x03eed362c0589ded1a31fb70b7ef988183e5778acf2ade07b732419cdc700cbf, 0x05bf5b8addcfadfb03f4da240252a2e58068049c1f4bdac5f7de62a6c241fa28,
    0x000e6b7c2641a87b807b69bff2098a6efe841d09c109655b0c5db00f7507f610, 0x012d7607c7ac0177b6627824ecbed1d4775a6a65e263eb40b2b8addd9c64ceb6,
    0x07f656dcd2e01fe3a114dc8b6cab25f18c51ec1971b449ea4f0d2420285f2cf1, 0x03dacae915c6927f251cd4cc42477027db4672aa799569c6a122402fc2a4d921,
    0x031330591c71f59dfcd89140f0b800a7f649f552847d460fe84091b46dc4dcc9, 0x0571078f6a6ca11b649df1634820f755300443c13b3a0411d3fed348b5cf031e,
    0x02d53c5c812dfe422422fea8b0ea69c3309728b679ecbfe0b1f152c978534c60, 0x0614efc0f3e08fec8cfcc355f3043fb6f411ee302da59f4b0255cde8332459a3,
    0x04c0e4bf73ab0e263a674b7cc5b047b006e9848bde82d80d6940a7d90c50cd94, 0x05d9208830a3fc7a4f4f5ba158fe5ba6c3163f484a75b9a1f6da68363d5fb56b,
    0x05c90eb0374507d8056a89d6d8b3f2bd1bc3a7711682c99b0cae336ef8227cfc, 0x037eed4d34f34cce326ec665e1339bf94af6be83e7f08427a3a0bcf63f24ffa6,
    0x03ea22d2c4cdf3f5c6ae30807a159859118d370290f47adcea9af1c782f23d48, 0x01f36594c56eb1984a6886d572353647ea38fffb24c2427bfe3613a97ee78186,
    0x0530d74ed30307e48975a7da69e1961b7e70a89ebf8fae7973a15bfa1aa2fa9d, 0x06e64c759432600e49647bf5bbde380ec3e2d7654f7a76e630d534e0ad0652dc,
    0x077c5784ee6f8c779f44bd1fdf3c82226d8b93fb12610442c94ede1afe0cdf26, 0x012d4a9993345b954cfa1aca1a54ca48c20f363de9d8dfab902dafdbd53dec51,
    0x0214fabede1f1baddd115ba466b754de19d6545d93b14202a5357d4e8e3f0a37, 0x01113bab27042129816436df1504a556979f0051f4a0ab7d20fe375190b7c57a,
    0x00b11e4d1e377d2035bf97766616d114c0c1d9e4b75348a887056cbc6ac2ba33, 0x03a1815f7f083b90150c024c4c14060eafbb09dfd2b07bd768638595ed11763f,
    0x03904ba0a6e93fc1ddae983976083b7eddd4fcc42006f2a961ce96f24172e965, 0x072e5d33fdad1ad92975875b68f8c319b726dacb3895d3ff802d01bb851eaf9a,
    0x02918550fa366b3b61b221cfd88f4938a11dd06f43972c884bb6df626b348cad, 0x067b73f9860e3bac6da91abc690ba630645414dca40fdddc490e85ae198dfbe2,
    0x05f2dd5545e8a8e957303543db96c68f1e5ec954b51b5f9bb54ba2c885c5b9bd, 0x0181ecb69d33a912e27d3a835ddc18e0f01aaf7209e7b99b029b0424fcca4165,
    0x017a3d1d0bcf12ac334083cc20f7c066314b928860720ad8fe48a6d1506f45ad, 0x0204ee36896401ccf2f12d2d01e6196cd496af3a78947016852a4687b3992b34,
    0x05cf5bdb5ad5a669bdf206bc64efb9a9bfe706a783e7467795d6c08f062cd1d7, 0x02e64cf74037cc255c580769cef1cee03b1a133ea2b30d3256611840553002b9,
    0x05d6edd0644bc12d45209b61afc2abec8316ee88b2131909b7638f04b1612d8d, 0x02c6cf2cbf866d863133ac4f7c9097154a1c092c1d1777b025149e3dca2e8737,
    0x074cd6c88e9c81b83cfa84d8d6255a0ae200e09df06d9ffc94982137ef7b20a0, 0x012583400d604ef0fef0359335e8ea5dad6f9ab9bf3162cc49ca62bf23c4af2e,
    0x05e678d7e625903ad8c32b5615c371b34fd5f40b262a5da3f4687514cd0eb163, 0x03c37c0283e5616fa7dc664fe1efbd6a77eb7cd02722123371388712d27e717b,
    0x0487466d3255d2f5217c04d0ba64b568abc820e672acd2fce521210479d8232b, 0x067de569ea4e70c9d281a7dd00e395f3d57a65fd57f57889991cc5d8060dfde4,
    0x007be7a90cd16138b5fe780c71b5564b800445b3a8fb1b813d6ed9c1ddf8594d, 0x050efbeb1b316b084d55d77d8cb6db08f2da9328ed3e621023610a074758bf71,
    0x062ef2a55e90d1228323cf076824226c53d97ec3036d856da64b82c4f5fa6190, 0x003a050bf2427d97b146b4611932602250396df51d5c92416b950d30ecbaa13d,
    0x073dd0064dbd46373f070aaf01b87018a970dedfb6ef3cc9e03e5ae023a3dbc5, 0x07801c6701338c830209b5851c4798be38838c2ab8113cce727e8e3622351f55,
    0x016ced3445edda61c9a64c1b3cd40f06628c95bac66077550ba07127cf854e0b, 0x064fc7ed7a2bcad9c3d5e3a6036102094dcbb2a0191cb6baa980e01348a09ff9,
    0x07920655afcc3502ace8aed813e2754d15433e104b56d0de10786566f4bc0b58, 0x04eb66e48ee708a126cafd8310883c75fbcdeadce7d57960bbfb75469ec4d206,
    0x064875a0fe0af94f7135a591d01d64aafc16e96244bf875d43face6e2811a4db, 0x07ec8e019e223298de51334eba3d1bab6d8178f8947d5b4d3a26eabd5c9fa795,
    0x02869bd13c3b7b20c99a316d90c69040b930bde9784d482817208b5db78cb4d8, 0x017fb3a385b4c4615ed8ef08e017945c1ec9f111ad9c056d60e4bb28e061da23,
    0x043dd21229cc4156791ab056625b87cec279e3ea1d9b734924365302d5f137bf, 0x018481afdb0b26f0ea08f2284185f44d1b25496612b8dbb435c3c3adfa5e5b9a,
    0x003854cde96253dc9593dc11df930a62111620711f0d86f48d40f077a4863d1f, 0x02f6c33df8ac0696dbae8c72208716624f4c7912972742ec232edb35688d8257,
    0x015410cdb353cf459df37b205d0c75960b9b7a9789d7ea4d2687257bea68edec, 0x02d4f88489395761573a7bf984b2c51d7e2f9f0e7a552406f2b6eae72b5a7d8c,
    0x005706a7e505e4c334ad5c27d6602f113430b75ccdccfc1a80ef8d8aa9074395, 0x073e98197f5fc3924d4022731e758e12cbdcad41dca85bbd4597157b984c6ac8,
    0x037f5b3cbda349a7dbae200410e22bcebfc4cd1f60e61a5963da0f4bb681c654, 0x03fd8d65484e3efb467a07196cb01812ef18665ce404a8b9f2bfe36a949db9b3,
    0x043b560acd0414eb3216d6704baed37b92ba492abd722c87d554d7b0ec720b98, 0x0227612ed23121ed543369cb2b7f309dc33d2069474cf40ec56e59106ed6876f,
    0x07d57a3edb63419de67a3ed6b5874f194cead9706fbc088ed5ce5ab8bbec5036, 0x006f4c6e57ae332f45efbfe10a512d335b48295dc80c2ec86dea247f4a16e7cd,
    0x065d4824ae8d719e6cab377eba62d94d5d09d2008c2c29ca68021767daf02627, 0x049f9114af8d524433577290ef6678fa723db1b2b820b44151bb655530c7de11,
    0x013c616d92eb122d32afae5dfbd3d80e4ef10f05ab5df71973e3341e41600db8, 0x022936dba47541f097f13cc663dfd109da014610c8c86bc27774df05fbef6121,
    0x00baaf4e9030426c695b7070e87ff3a860eece735758f553283fe09b0212dd9b, 0x020f4bdecd223a805fad14c4f6eca0b94d0363c813d065289ee3e8b6ca33b352,
    0x06fcc11576a1ac9b302752a5c7e1e81ce455e39d61c23b6f128637e94cba2197, 0x0797141adf61925ecc4920f29396e33aa4a2e9505ed0a193e82e83f6064fb580,
    0x078c035a5f7660d05c4cb4123b261a6d9a9ee9ecff7e137aa36377052bd492ba, 0x05f04321bd447ddd4431a2495cf64e35e34891df499bf2f1a4b16e11cf0fabff,
    0x005425f3900484fdefc0a0d2d43422259dc1710a481c0731710ae57e4740aeae, 0x000d06e1a570617205b67bfa747c9ac996f6bccd4663c5fa81b2eacc6dad34da,
    0x0631a11a3a34b6963abe38f49857a88c9a5e4a6e5fc7b8582f93c836ca9a2aff, 0x02f877d3104a26e92b909ec4dc3a162f08d070e820730c21dc862fd5321419eb,
    0x01b51aa18816a7dff387afde2db408aab37ccaedc1e125c238cb4390cbf2fc1c, 0x07b3c9b1e7da963beb5ae112224a77cf17f01ed29aa9877fcca6a54b37fe637d,
    0x0719c5b6c502e0c056bbcdd02e36700f30957124e0b15d58f847367ea9b8c83f, 0x031be5a91ba48aef42519390fcb46b62d6c7e3d0647d041b2f17b7024b025be5,
    0x05d9467aa3811a153acd1714eb0fa056c0dd1b3b700ab90e0fa40b83e9378ccd, 0x02668e947a180ee7bc278a8da6510c069b9a88c6b6a9460d9a84d12641ffad68,
    0x067c7baae7f471557dea9942bdcfeccb035947d08145c26d45ead9b5d22e29d4, 0x0462876dc24499ffe133193867c44986cdaa97fe7154319d10d3f5d5c3c743a4,
    0x026a7a5a11792b39b4c8ffe43c421320ede1e420769b796a973e9a59875d622e, 0x05d9c315ee45fe66cccccb32b72a8e9ba3d1cfa9b3bf1af843f2c28877bccdcf,
    0x02c2b6a09b0a6b8cd619a0ef22b69c4ec922182bb109f566f4935259176b6003, 0x05bb597e2b19793ad7f29b8c98a2fef4daf7eb0a13717e28f178409410164db0,
    0x014696e3a312c597318a16528a6476085cf220e42f9af179ee6cd3ccc460c8bb, 0x040c98847086e3b074bde695b18c85ed3b9ce4e648214bbd51eb5f0a8a81c3bd,
    0x0456fab31f6dc7d1a175fbf2e1d65613e3df7d144f9f0b613e6298ced8e657ec, 0x028413b44fc579467410464867b54c03971a7e5f7ff0a4fde874bb086a0fd36f,
    0x07aa5c71c08490ed5b9de6ac15c43c0d972456cc4e65f2c3a1deab32211d44e3, 0x0318c45a4a5f6e6d0c190bd44848e06da38475324bec62854a8ab64df9f569d7,
    0x04d6966bd5f8c4a4a5017a386557ceebc6db7c2c1045981dd187305041104791, 0x03c000dd4a46d381c56def898cb15bc872e94d5ec867d6d2205641a0bfba18da,
    0x01b0c1b8dd6f6798bc36cf469f1057c6e795bb1cc18078a68ed6a93914dc0954, 0x06a443e8823453e51f7503400edf45941af5321d138e8070584f8c7330927713,
    0x060b37236f0ed078cdc437d83f1392ee3fef0eb9f6dc20930dda9ae30b030bd2, 0x06d6443e7bc84fc40e52d45a84296c0ad319e5891e8c5753f6a5405ae870d1cb,
    0x035bd2442ae0ef7a32afc84819c3e9cbcf6d1c7163bd01f2f64ccb1e84b63974, 0x071ba4a5d79955a5bf92f30fe5f6189859afaf4f0ea1c859b7ce37025e0fd567,
    0x04ee859b077f53b84fb1f77908fb99f16c5211320e63ab41865ecbbc813d7ca5, 0x017a6256b1debd98627a8db46918565bfc0e94327f39756c2ae5a9661bb2c10e,
    0x0692192449684121c8a415356a2ee298d6e1b05fe74ab1ae5a9c394da703ed48, 0x02949e7f27f76c84991fc366c874454d9067d67b0657945952b8404841be3357,
    0x066bddd0534893626d88d4a4985eac1fb1976cedd786ba88fdf36e3a4e569316, 0x0507cfb3b15ec2aee4ce602789abac0eafb7aa82d8f4c04ff5ecdaccaa7a64c3,
    0x0195570f8a4a2843e0529e738233861c7a9729c74c2049f651609bcae334908c, 0x01fa81f5d48fd33293c64e099b4cb65f850889f19b612099051dd278d7462d1d,
    0x052311a9120914ad2acb79cf6c642631ae560e9ce5e4a93c71c6857b10d981f5, 0x022dfd0e55e51c22ddf0a315b51af14d59501f4ea3d89c02f7f111acd101f36d,
    0x03e37f00cb35d3df987d00a151fc1228d4a2fad6c6bd27a10307cd1d5ef30acf, 0x038325b27f8f913b6821c681d9b7493cf3550443888fdc465f05e4fcd71816c8,
    0x0316499f87cef0fd4d6afe57acd0afeaa3cb0108f2ddc061a9a16cba598a742c, 0x05f909637d33598d1409d5a1bb2bf0058efa935759aac4eb8b344d98be244559,
    0x02de87e529a675552e4822bbacb4a19929cd66509f0d11e3f7bc88c9f597d5cb, 0x02720a045644a8860ddcaa0311159cc75dd26b75482041f84aee4f9c3d52060b,
    0x04a0805f285fe8d18a13a8f142d5b2071f48db34f5763e6dd44fc177b2e87e08, 0x0382922b391d0fef371d58b8924ebe7214ceb9d54334808475a19ad6c904aa02,
    0x0476edce9e3a8787d6bb95ba85abc97618e4e1cb95cbfb87ac27cf650631d429, 0x07946b0fbc37234d7b362cf2ff64b2f38fc988ee8aaf3ee0552905b7e7bb9d05,
    0x06b03d22ddfcc183109a7171aec65e1ebd761ff0efdb7f1c17b73eb74e88b61b, 0x03ff3d03deb5773946e661f452d3c477cbf00461e834f5619b550a35ddf08e05,
    0x01f8aff42ca6f373052e55db47440e0be8644aec2d8aeb2fcdf48115dee88680, 0x042a524cbfd7c5568ba33eda2896a648a1fd75e3202b4179dedccae513024315,
    0x03123d7ceb2e371b87e4d19382b05358fec0f189dbbdbca3e7cea314ba61d336, 0x03859019e9ff943a43d1f02469f825692e78a848b64097ca4084742e65b7e82c,
    0x06b14e8c006cefb26628a998fac448035434ae0af51812f3d7a8b5a76777ce3d, 0x07633c89f4b612aff7273bf7db45bcaa152d18d3023a9f9572a68a751b8fdeeb,
    0x03ca8d416169c60955e6521c05f78d937faba32aa0c2817ae205f726f7663272, 0x02e50e35d95fdd95ca63c50c844bab23982e217b399b29294d3f7a49a835166c,
    0x013aacdb23bff1b18d23fcd8bf27d7fdc5dade88116fb80f2683662a8d946463, 0x0606dc9de2c5c1dc3f463e0fade84f8d118e8b13b67fd29cf26c6c093c170fae,
    0x01f0cf296e0378db13a6a0e089004acbdcfc29052ef951f9f2bea380c13209cd, 0x02e845f036de04dfbeba0a18d3ef3c03f6bb92ac55798697c708d8ff5986edc0,
    0x04b85616ce94c81e2b4604b36b703c9f8285434deb81d46d3b8361213388afb7, 0x06b9c601cf9190b5f9cce97790c4e4e9a8adf578a121b3a50cbbf21f19524052,
    0x0181d53d1c83fba0dab11e76ac7e23a32f45604866496f893afeabb306dfce4e, 0x01ef93dcd3ed83b033d8348ad193317e504d38db1bd0e0bc4b7e58985a852b7c,
    0x0419689552488a7244f183d2e06c54d89ef51e1fc90508c8b58419734756fbc1, 0x01a9f902004b0107591065f433264f6d6d21feb6c7d385e64be29df28bc83696,
    0x05bd2fef813e44b9a6c0140d9431de28ac37945be80f835103467bbe98bcb403, 0x01b5ca0e333f00781e2d6c4b469e38352e07a18fd6856a1c522e64057acc9cb5,
    0x049085f4c9c40b36034c2534c5401b544c05b2d6df8b5a18aed4521236c80e67, 0x0606dbe9297d3c8621bc3375d28be398a0bac7a94eb1d1164894cfb5be8ef19b,
    0x04c1c84d5f28a807334cbd344591e71a148406a31dfa545849c52bb3f7b3903f, 0x03a5f7f5345525e618de5b48b5dfba54bdbd65e75456fe25da82ee767e10ebca,
    0x07ba4c1c08659a52064e0196a55fd137f3aaa9b07993559c0b516e9ca2352235, 0x04729f1cf2ca1cbe25829482248d20a9957d061e05eb4b680d36b7814a113cef,
    0x070e5e86163fff68f138867e78f9d56537aec82cc76800bee55f7e6fe7c06e6a, 0x034e32ce2b8151cba24f80c8b227d22cbd4fc6ae9c61dfb25964afa3f03765f6,
    0x044fe4d189307fb1d6be5f74e64583fd4f6bd0e8bb24beb12ddb5ca11097a92c, 0x06a53aa743008cba794587543a09acfec8351bc93c92e206e04e18d7a30e532a,
    0x051c8fcf7289062da59c446deeb8b3b7cd99492c2088d4cb0f9e01a8aba67dac, 0x030d0ab68a9cb63ac8040d61c8a56f4f93a8044c49cd516e61672e4b4ce93ecb,
    0x046a8533b650117651e3bddd4232718721ab84f58a6adc8b63c14da04c0a46ba, 0x04299f3960c9aee289702b18d2ea4012eec5109a00773d8e692c025f8a9e65c0,
    0x06d1eaac0c2fc0c3897943d710451812970111dc17a39318d3e2dd1fb9ac18a7, 0x068c2ae860cb2766d34bd024b6b41e1d9dd75048451c538a1bd4fc5268580b3f,
    0x02f93968825da5ca78e673678d6425e9aee29ff219ec7eca75cbde5773cea1a0, 0x03766419edb980788fffaf2bfc82ff62f78778f1a1b91e172c1520bbf534f085]

/-- `LEFT_Y_COEFFICIENTS` — periodic_columns.rs:266-523 -/
def LEFT_Y : List Nat := [
    0x022b14b55b21a19104eb60a5c9ad06bbff2018993780280dc89306a2affbc0e2, 0x0591b6ce9e114999202e5f289beee0d4f9dc09d232560588d500d118f8881347,
    0x02b73305f31ce15198264495086f7f0fb831ce40dc6ed4cb0d1e762f5b8a2e1d, 0x05fc1b278375274d31746a5053bf31053231b499f7e12ac00688ce78724e239b,
    0x0059ff8e282494cb8c80b69bd409e5f57b698887545838b9f4ab8b738a25f974, 0x0738d23e06112a577538ba17a6ae8ac3e3e951b05815497844ab16d79bc9a308,
    0x05092b7756d71bbc1578011b7a8ab821ef0f76ea577c17977cbe766f29648a69, 0x07d668e6d2e48ac3dddca2231a9b9f5541f9d6b7d472816540b058d0392805c7,
    0x06c713a9088a7c89a731947a34ec34d6e84ec492d58a2ceb8b9cde2944850c7b, 0x0643ad6657b0304f1f63af6e84e46180e4049edb6f4667e7fa8c34d6c6705020,
    0x04e41489a4f207728d8884c461a99c926ca0f08729bc651a9d279eda8120ed45, 0x04d965ac11ead366bed0af29046690ac97f85703422c5efdae1b5ed461f4a429,
    0x04c30d209b948350a464377b67879cde7df2587a90df2a7139e528008c70f76e, 0x042ae77a04e7ac0112218e5dc86b0e3c62c32ceec216b32da38245139f8ee9ae,
    0x031a267192540db85b112ac1ed4d8fd7b4ddcdf80aae13727a035c33bb9c5002, 0x01b46de3b5a9f6337fda87d8fba2c9a3b6539e364d8d62a0fefcd6008237f18f,
    0x04cd886844907b8cbca4594272717a42d054485d9b82dc0762e3ca127956aff6, 0x0230b0feecf77288c66c0e998d94fce93ee32e99ef0fa614215e28e8aad30ea5,
    0x0551db8362b480c4fa335bb42d0c79528300b2d31994a8f70ad9eafdc3d0f1e8, 0x000333147fbdba2e33407ceab8d866d853c4f78793cc6aacad29587e140c32ff,
    0x03fa49ed0554df298b10494907c2b5f74cec7fb3d72fbb746e219fc21900d07e, 0x0428ef505feed45625aae577a29aa86e63f40c968a1cf30d686ebf5c96842684,
    0x05fe85c86f24a104ebd8dd2795cdab5c953cfe3f724a41c916d86aa82ec1a00c, 0x000f5d14078a27c0d7d8975ccf0a798ce14f5374e51700b29511d3b704379411,
    0x006809d828415e2093d020aecb3ed392f300cfe981b78206422b935941ca70b6, 0x0350cb61b5e9fbc644c6c8e58768e6ce53251da9a2316dc7aa262b40d3119e37,
    0x06ef2eb50e8dc3d1275d95f3a7b72563ae5c29ed3bdd768b1fba9be3fe90d577, 0x055f3c91be3f07a51d17b9e78c4f64506ecdf9f8ae7517a5916b7c64502a8bef,
    0x01d76631171293d890726850ab1430f08a250736c2d54b2b75c006aa64fb60f3, 0x0410ec1535a9248531629d30ea0ac3be5ba994b9f5c45f220447f469013111a2,
    0x0183cd0479f5c60f5ff3e2542c58dbe19739614655055d47ec19c690c87eb986, 0x06a9d91e3ca06a012da4f070d3e087b0835ed642b3098f17e3e49ab512511600,
    0x033cb824029dbd3a13104ce1cf991808e8582b049445f3bf497802bdd91c5689, 0x063b967c8613360ea23a65fc006bf0a8f71622deeb0892f73f71d31b008b876b,
    0x06b4df494654467b09d2db8b79c63c6c28b9c7ae1b5bbeb3f85bab92fa7054c5, 0x0650df0a8fa6612d5980db3a3e91fafa436220c1112041805a1bbb9ca6e337c2,
    0x073e6b93e502e4bb0a0a95bb5963d16c9af71f7dca94f22f374f228832f97326, 0x00b46669c3d951ba3e19d539bf07ac25e3ad30bc7ae95bfc4ceed088385ce6f9,
    0x0165d35df3cca022da14fce57d0ffa3b6fabceb1ec36f2a9262d27892bd03308, 0x0117a591ab359d722afded7f4194516910bb1ab0d0320bfa2be334d840629acc,
    0x055a6091cd423ae92ea96549908cfdf452ccb6076bb21e7f821b46e12a9a980a, 0x0606eb086ed0000ac5f3ce5b0bacb0e6904dcca0f50b2071a11b92785fe0de6a,
    0x049e8734e91e15b10fe6a3875f7555fb9ef15a193c44a5ec5d04fb5d3f673f90, 0x03e8fdffd1cbe1513a526763e90effa4251c60b95ce14a17a0a656f43f3b5280,
    0x05ec01f9881d56a68eb8a6995abd9c9ebe864595ffbe1b6cc04cbe393a32eb9e, 0x00f98fc98db20746ddc3580cee37be7677bb83a7573b372c4532192dc4fd3738,
    0x07bb82b211c1729922bf22bf426c6951eb8a6551abbcf4031e4e3f5858dc0729, 0x0372e4de0b1e3a6aecafbfcc215857538ad9141ff8545778acc51180137219f8,
    0x03739dff55cac5e413620a9e4c768b2a8b0614506d8657f427a456624afa1837, 0x077536d0d9f39c6f563bd8d15d23fd966e27ef7fa6e14e33a0acc7775edd96b3,
    0x034732c10f3e233d867ee2ae2c59daefc07e5536a854857b06c88cd859cf28c7, 0x0018e1df0f0bacce7b5cf826c7efc2baf07d895d1ba04c0c9507cb96091f4892,
    0x007970ddb78bd04eaacc8bcd539e91c8567cde9a08a3bf40e319d6a4e9385d30, 0x07b2ec0cd2a578ea9f852ddf72371fa580ad62c0f70d14f2932e724155b7b110,
    0x05afa0ad5a1fdd924ff4942c246dd87ee721588643e5fca91f95409d63e1dd2a, 0x06072eb120242b6e732f09d159ced22aa60addb7344d9f37b01328820a47577e,
    0x0478dfb4ea151e65110880819c521cd241aeaa34a234342d76838c850e463714, 0x036d172da65fc8623eddbfc90a09fe960a41f1cee55571fb85dea06ea200714e,
    0x02dba9f3cdd3658ca5eff1626bac92387fcf6180be792364ca29caef2d4059eb, 0x036d39d60e7215bcd5390f5dfabecc59e05cd7b637d0907e7849b40e35d34ce6,
    0x02ca4a479f4d69221df84c16283a5f2469d6df7f2cb4edd97e7570592753c314, 0x03be312bac59cd325b4b346efa2e5f0e579cabd16b87945a9d384df05b405a74,
    0x038298c23431f685d3492483aabf39297b8df51b14163800bdf1131d8ab5a2fc, 0x022bbbcfe4b152baf54a1d7ee85fda91ba0ffda18d4efc98dec1a9605ee02b51,
    0x0670aa216f2c93e28923bfb3700e72f4fd9718862f6876c9f83d77f13aeb3d26, 0x0741e09d43cbdd21dfb236e6a47e03bc9cb182c9908c05068b7add97e4977cb6,
    0x015154087276cf6afece0579c8b290e9c9821ff8021c776bc25023c6b0ac9757, 0x0785100e04ec3fbcd3de536aee088fc4a25397af388657c78c7f46c293fa3fd1,
    0x03c228407dbcc2e5f39418f9a432d1d69e66997d72ce2740c33e99a4bbce0ead, 0x057bfd8f58bd4ae80dc2338f6cda1c6e93a834bbacaf691b91d1c81aa42f44c1,
    0x06b097f67573191f9bc24f106798ea17016589a3c08ad9ec411a0ff7a3ac6c89, 0x03cc5643c575626305f338eacfe0896c8d49f627f16824afce76f53f5da46158,
    0x05e60b1d790345391bd754c50a007fbf260b73cf56f0c57668a847d1db110b7d, 0x0542497262d7deaaba9c1f84191da3e43e7a178f5547d63e0786ae99b8db0953,
    0x04406410bf3dd261fdd0605dbe16cdfaa91c803b7bc9301b29fdd524b6469c1b, 0x06f3bc1382b475d1a95a11c111fc8455081262928d5fccdc6cb7c699359343e0,
    0x0466c57793215efe5e0067f5a664680990c023b8e6dc1df9475cff0e1f2543a0, 0x056a8f9f01b8f8f4203cc8cb2a10fe4e776a116df2c3e1bb199193a88e78b418,
    0x04e7645d2f91b184465b9e97c04279ef6531853c6de9ca7d44d641b1aa77cb66, 0x06a4e097aa839d6e3eabfc265999d12896b0937b7dad72acd6a09eeba844f8b7,
    0x01a7a1ec197109ae0bddef3d071988a4e5e7e035b226e6854a60bf729de06054, 0x076a00a42a35488b85e9ec61c2df3e8793126680d0a4cdccf9f51765d00dce25,
    0x033eb60f392cd8790e5ece8031d8db0b97a07050005577790dd38a214b98baf1, 0x045eeba6cd9ca6a9ad879555a9dd1634a58697f5f61f76232df7741145b530df,
    0x016ebe97bb1b8cafe8a27e8ff49bdc1bd994fa446d0ec444acb572c86cb57518, 0x0263ab31563026b0d8f9da0ab5e235d3f153b4ea172cedfab5192894d269cae6,
    0x029d771385372f94a8821569110166680603117c089a7e974446d0a1dd1eaa9f, 0x001e48183fc0a512e34724e8d70bc66a264c826c61fec887f2d120c318d28896,
    0x05ecfff67c8d179257443619ca19aa2d8467545afe59e7fe2e73d0e2d68762f3, 0x06d467483675d57ef129a773ebc9c4f4c08fdc5d13755fd4c657b1b00c1531bb,
    0x00b5121dcf6c4b4791318609b0ab57d5b7b9d4d038ac4e2d89e27cfc870d7da0, 0x02e6fea0290eb93294b2ad396b0863461cbf3387e01177f0ae7573b7db8b3a65,
    0x03c104646b86104f0fe3ae4cca43410fb47b1e21a85fffa68f6280d96f752638, 0x0470743ab8abfeb43390c5059194386488bf26d5c19a8792fb670e335a173ab5,
    0x0765a5a4c7ed30a94b82ed54a0eda65081b39797947a02ba6e266c650b0b76fa, 0x01ce7be40695b57081e29787c43ef942eb17fdef27d0637df45edcb30b6d106a,
    0x0407018cdaf1751aaa433233ceb086ed5ffd74907c4e04728336e43d68c43170, 0x016c06cb89cf03c880542fa7c97d6d6566ecaf47c35944498361be99fc81c16f,
    0x00cf70443b17b8cf9f83760fa59231c38bbf8af78ed59efde3a25b2ea6fe5432, 0x0565461a113894cd5f6071a5328f8f18d5f8f5bad44c33f853e4a232daf2d541,
    0x00c5397e1b1265900fd0d94df5763339078604268561b7f1613b24fe35ef2f6c, 0x05fc6c052ff8b6224a7351c49ed97aeb6249c3ededcb395c97858e282e3972e0,
    0x013dc115ddd32824bbd88d238adb0ae6ea4221f333906da02c38c2eabfbcc619, 0x07a1898d8aeb7e8d563d882c52f33f002f8f9cee7e62d4020ea1e576be9ade68,
    0x030258f1cfb9402cae53c036873b4065aae5c124a18d2eb3b4a1f37620ea7693, 0x0605654a8f94bad21a931c90b3c9e81c834efe4f10e54b787ffc65e36eb7ba3b,
    0x051e16e88d449b35f43c987809bd59cc709a2d01c33f06e5ec13df3cd7c49cd2, 0x02ce9d3ed6d434fd72199f8189e7e87e743d8e69b00ef192b575013a0c5e1d82,
    0x04f2532e37fb65208cb140906b13066c281b7b41a7b4a0fa26cf911defcecae5, 0x002022cfa64b38c741b57f49c20fdb98c8321e02fa28f8b195ec77063e3e29b0,
    0x05413dc33bc347a7f7ce2e078c5ee4aca78a34f5e9b67935db4d15364a98ad69, 0x04e2d86a135ecca1f31a8b96970a9585bf81c2a88ccbbfc8a231fc6411fb4e4e,
    0x06a2c71f6f2a2067a2c290074ccac6891586255c394211e46374c2e0316efe4e, 0x07cadc3711485dabedd12772aaee6796a438bb4529737ad231170bffddd6c8bf,
    0x05c95b6b1420fd6a82bf27aa461f824891918ead7bdf1157b1db254c7b5bb9f9, 0x00bb4199f826a2b4654f5f4617d02dfa91ba0a54b801333f38b06a112885df35,
    0x030d8c1c11079032f2ee6805c956cc142e9db4d76c0057b1f9a27941e9afa1b2, 0x03c1798f35131cdb770d3fa036fe450f63a5f693a011c6838cfab49f2e988d29,
    0x039d1d3bd19ee5d7f498d64a1fbc3e7b17ba486386c983b025b65aca9fe115bd, 0x06fc3024dda84aa1b77873b604d2db05646b07313b1722a65b06787acee8fbf8,
    0x01cd86169cf8eb29d1b85cc18bfbc64768acd5666aeebefe2f4a2d7b2964a26d, 0x0259802c1fb7128b850d64ddac3c0adf48254404572cfe85345c0e9119d0402e,
    0x05859daf49ddbdc8b6487f312bf6edd10b607925325dc3ae7c962052f31e3211, 0x0142252e39309df6f41d37e73ea37751eea7b0cfa0562849945475d1a873eaae,
    0x028fead7c510c51e49d4f64fa2bf94b0630c12cc205f293b6bd8aeda006d1309, 0x03620d6d6400ea00dd6a03808763fe87bf1d78ccfdc257ade2dd8ffbc1e0f806,
    0x015bfacef59c15005b18720fb13342ea3853c18f293ab4fee3e07e7ab216d8da, 0x0639e188c8ea61d393c8b98ecd4262edfff840a7ee47b282129ea06dc244fc5e,
    0x0324df025a64692be68b78d8735cddbe203e7a5c871b58c469fc9eb40cad63a0, 0x02a431af2c7c7c8132b66f8da8e7b4b3f2149b8d81a4a7484d6a85383f06ef1f,
    0x06d8d8a5c5efaaa34b378a46fc3291c11f376b8110218a93f392ba24f51b2d0a, 0x04afd990b1564233cf2a02d83f57470077f8c70d2321d46f70da0b1ee5e1e85d,
    0x034bd9a186d18830edecdcaf363909b198ea53ef09cfc3968251716044413c34, 0x015060482705756026b9801e7bafb591bedf2dc8045e48edfa64ba7973807720,
    0x004571a1ebf75bb861a82b5d544d0a1918aa4cde495f49e919c71f741778bd34, 0x03a78b1c1dc96b5076252755e4156dfb35933165f0031b8e2e7dfa80c2e6cf38,
    0x0697ad2de83ddb3f5568a4f49e2eac5334d35746e2d8ccded0fe70ffa1a9c946, 0x07065e60856fb331446b4106586c10cc7c10f6f911ea83b7f2634923926ce59f,
    0x0053d014eee278f2048de0383c383e65288ac819d097baec09b91ba69a08f99e, 0x027d5faf86ade9eafa3a4b973e63a7fae86399f01862a124430425e26a1256d0,
    0x000360ccf214c7c7ec5e64df8b6ee748e1e0430df382a3bf2a88fd9e5e615117, 0x02b7c6407b0406250f26ca34b1460156b251066b1a2dd25de4cc9b2204d0bd23,
    0x05fa5346148f0408895934c923d2be49eccc1a4d35b2a4158103350dd56576c8, 0x05e2340de63b250d8df0796e2b32abe32b6b6f07b13b3a0cae24eb1a620e0af3,
    0x07b1740b862ebbe3eaacbcf6403c9948eb0335c520d9b299218dce0cdfff77d3, 0x06c63aded8fe093f2af250eff7a3f628ded0f34fe80751e18d39f8faf65f30bd,
    0x07a6940f217cd74f06969bbcf7d0ea003e9ddff09a8a5a16b4331aef66d05bcc, 0x06da0ac16d2db0c3cf18db1c604f9248767fd88a1cba11d817e09e20a6f47bab,
    0x074f83d597c6662db4c75aca4dd05563aa5792f10cc1231408d5146ffd0883a5, 0x0563f483f5fbb37c11978e253b04ed0d0d2c4d5b96bab83b1ad400ec65a0f0b1,
    0x03f890644d823edefe45faf27e7ab9a3e92a87002db5da751e1d455f3938e469, 0x045a9418eb89616a3280e03f8d487f600bdd11705af57d95cef117fd0792b96c,
    0x0541f015d8c61eec64fccb6b4ea31f97e492c615523bfc0c3fc762266e630caa, 0x010ecff715811f217a579c390379181d0d775ddd16850bb56ad1dc834c9fead9,
    0x03febefab3e138467d14db3c8c5081c5252421408ad1ac4a23cbbbe36d8f528c, 0x065bc1e190488b0773468d514e9c64e62c996ea7f1d0231c58a7efa6d7b28043,
    0x0392f849d1f7689c1f85b6063539b355dc7f896405c970077fe5e8c085d3120e, 0x0161eee8be835e07010d3e6d181e81bf090998d0d685bf90cec625a5a823e18f,
    0x06aba3bbfe1d29b6ea9b7903bbf9b082466041fcab5d2101ead92c51f9d6eac3, 0x03d959239e67ff12593cd50b18ade4565b60f4f804697a471e6d89b3d6ce6adc,
    0x06b67a4a8a64d4135f883fbe5facd2e193a5bff966003419f8d145178c8e9009, 0x0666e01f5235f64b0ec61f6590586616f3b6390ff5b532feec01ce6cefb4f995,
    0x03feb84a319749b3f6ca19fd78e97f322f632167f0e33835c41b30bc17aa9e55, 0x0138576c19bd5f6087ea1a572ac4ccbebd37d4b00282247fd9b3e62718e8726c,
    0x07d9e3817b870ee62cb46d8e9111db520a38ddc13b19f3694e51e93128d45fa9, 0x074f1fb80d3d7468cb7d889cceab8ce8e2038125f1fb23812b6aad76c69fc0a3,
    0x06598c8ffb0317ca143f9ef5ff0c1061ad0f7b93fdd3b1e9779a8e592496f6a7, 0x06a9e3afc05c435929c37dd8f0dab124fb86eac8b7122dfc8450c9b579735a39,
    0x03bfa5c40753ca3e90485e3c73d05d02aa51637fcf542fc1fa53bc5552d554be, 0x0670f629104890175a36a90fcd8078543f7c771504e4d5485f98cf1364a98476,
    0x06df5e4cbe055d458f11dd68e46e25a4015c5c7e9d460a849cda69ad17c9b063, 0x0750ee4a60b6295050186a860f21177697d07ed8dfc08056f7108c28a562c87f,
    0x00867bd82aa111a4ee760fefded1a5a63ab5fc0125ebb2a021ac439ee5213c97, 0x05602545421f0086ed37aa21a8ec4ebaa46fb4e3a79d0a8788832ebe6220e936,
    0x0702c31281f60c127d5cfb2c43bf8ae01274877a022a7e5be4079ff59774738b, 0x0096e57083e77104c5c8a58a175c48f52475eb88dda753e8d21cf15da4ea0447,
    0x02229e7cf325b3a1daff2d8c1f8c35b6afdcc2fdb6e53d9130c800ffb886a04e, 0x0141f7d84b0560b195bfe0b1475b35e3e1dafc252112e1157dbb028946911d47,
    0x003041117d3bf6cef4504fe3886b549563e52c30953b0b2bcf6f3d2968b1972b, 0x0298e99bd657d16cf0ad23cfa928b0a181d43a3074ef6416215b591bf0a37638,
    0x06a1bcb1bdbfb33635c8aa218172f9bc6c771fed9d74f597b24190f22ab36d8d, 0x06126bf6bd7574078571cb4132b9e7f37bad89e493d2d277f7e136584af089e0,
    0x07dad04e65486a46e6e888fd2e3e75d7c482f1db5f6d41c3f9a5098b0209a0af, 0x05f81f336df657d657934a75ff7e51edbb34f4d5fdde83ee378992bc6f0a1676,
    0x00c5feccf8dc6335298e312abd9aeaf0983f2acbc3308df7de418cb58463ece3, 0x05f281dd730319a2b5b2f757875c5c33466b808eead0ad4c07728a3beef034ef,
    0x02f0160ad0fb0f55b834d7fb0ff6694836c1adc4580ace96986006ccea287c1d, 0x00f3889425c96f50d30b6bc7b0478ffb3ed6afc67039ecdf9a917cb0f551e2f8,
    0x041f245db0143f3c5301037257b140b35f7040312a09387a9096f1b5317982a3, 0x02288cf95b81a87ef80fc848a313859c2452e2b42fbe3071ddbee4b53215279b,
    0x00440b0dc25fa618ca9047f62615de46364ebe3c2bae85ee60bc66dbb9758897, 0x07a8e552375b01a4563f527b3bb7339eb880e2aaa89bf5f9f11d4eb845928328,
    0x015a2368e7c141c779373988c36ff5864bd04e61b53d791d3c9585cfee941aed, 0x042b0c04d599c8f7ac3ca7796ecf7c9bceebacfeb7ebb13eb00c447762b7515d,
    0x02e94c0eb9e6028732e4ee3063df71a6cc5294f05972091034c985a9892c7e0d, 0x01bed14cf3097df00bcb8fa4845d91e12c884309f179a9173c9ab4132540086b,
    0x070e7aebbbe4ed43fc40dcbb718716f4493fac207866adddff69051d052ec195, 0x04b48c5727b6a0cafac51e221f5b43e52cb21584ba80cfe612f83f08a30abc1e,
    0x0136c78883ef592797393f900416101a111b9cb4908dca5be54bb0ad6625e6fc, 0x064dddd0f734ea0065cbebd363b0425cb9cb65965335eabbd951c764c6ec8d4b,
    0x0374089f1e3efd30c0204e5324d22cd20b1ecb5668be65786997233ab49a606f, 0x013663a9d49796401bf2b193fc946c2737e65255e09854393119a6b97767c2f4,
    0x05f1b324b75653ca7cbcf41fce19a097f45ab74757d6c9682f8cdb9863c2aee7, 0x029746608b0a35ec4441fc8de37937cebe04e2c5107114958adc43083dda42d0,
    0x049dda028018094580ae64a6556ff629f9af0288814bbc4ca205d052d670805c, 0x074ff233d60d79d724b5aeb5baa04caf22b01cadda2a4bfa94c5403d5c4b927e,
    0x0022c1950ab651e010b29dad439875b7e49782c0e23f3ebe1abbafb6a72d03f4, 0x00f383ed467111fd995bac11ba0f38f20bd13e7e74cdd5903fa362a432c9d76f,
    0x00155b69dd2ee3d472b31f787b612aebade76727c9f2aa2d87549eac08f6f64a, 0x02327b9748f589d272fb135201acef0447454e42475413e14179b8a42b407d93,
    0x01af8540c563c8781eb5d842b4ec1c0fcc782d711155da9a7470b0af5af2a430, 0x02439841606fbb94eb1b74f8052d8b78909c829a3a0d1de22abc3ed1eeb294e7,
    0x0427e8746b786c6210596c2d030f4d7357972b1cfe96dd1447c45f732f230ea8, 0x03bc52bb71dcf28f679faa3d923fa039f68cfe9781bcf13d7e56f8126b0359fc,
    0x052a81ea950c50127932532edb2345c091215397efcff3aef14839059a7c25de, 0x03f71ca81c3b68a696f66d1cbb0429fbc10e7f9b81c0b966d2b34bf1d3f3407c,
    0x046a549f08c30c642052b0b7ccb79af73ecfd128c25d5b7f9e006bb9c35ca131, 0x04894cb34f2b2a1d3f86c980dd488e1a70e42975d84f77d23c8ab0c88b77a6b1,
    0x021fc88069fc41ac4ed3f5792df6932acb18181ea7f52fdd97749648966dd1bf, 0x06ab6470719ddff83076171595fc8553f4731cdcc7a3acff3cfa19c6db132459,
    0x01c9592287c2fe6dffdf21b6763e236eb20c63a7426418aeb9e4d35182af778a, 0x05a7b0b4fd3aed0d929f375abc2da340ecb698325890d9310b67ed038760d435,
    0x066febcad531a29f3d00c649a4b7f9028f4a7e00304a58691c926a2ef51047df, 0x06ad58c6d311e80da1d9e6199e0eb08b196fc042d7319b77b98637c3ca3ed813,
    0x02045ca2f088254b2a0b80b737db854863433d4e96b3d2db52028d8635c687c7, 0x077e7111de2850ee53788d50a475aac3b150dc3eb6d821c54569c4ef2a083f99,
    0x014367032aeae5218faef7bf6666789c245e57b81c4f36d92aa974f3ce99f190, 0x048b48677e2265c7b2b5aeebaa6a7c1e8eb2a6d42e1fc034456d9cdb3e52fb5b,
    0x04bc6c9b7cc8e1698901985ce2c4bc574a14d79a1406d098c79e97b5366b0796, 0x03eb432f8af0c7df74ae538d9b651ef9c5f77f4d61610545d9d8f4ce18140c2b,
    0x009c89591b4838ab39c60afb98a486dadef37c8a3e11969e777ef27670938489, 0x03edef57c5dd348f6645e455735f56fddd1bb520afa63240110f23b853daf3bd,
    0x00df47262c9cf300b90435390c2a2b3ccf26b448bbe2f66e842717d2e496abf1, 0x07ca28ba8b7c1469d8d367de1c47b36493dd1e0dd469dd09757582c732a7fe1d,
    0x061eec30bacd905d006427a85fc064b2b3aa15a1e6b9ed8361d63c46058781b4, 0x07b4e3935e820086e81666a1f32cf6ac5a500756885b83839e5bbc35aa675538,
    0x069861634eef1dc199e1c50c108e0f3e48fface7ff0806419da4eeaf8198f3f2, 0x06b3ff5718d246c2361dbd7a334b8540a97d748f893666bcac220c9385ba3e60,
    0x01dbe68e73cf856feafeb8e42c1d5d0e349028633e3554fef24b001fad4dff1c, 0x0552f8e85d401056fbdac0bbaf53c414f6c8f7889e1805fa53d02d2fc0b8d5d0,
    0x078be447c2bc70cfecc6bbf16dfce813ce526ff95d531a2aa03d12bd1898a60d, 0x01291c6eaf66439a00108ad713c0653ed854753a55c44d4f5f5ba873e00274aa,
    0x072a6064fc049a90b671ce2b55213811b40e68c44becba0d6566f42b5cf8c88e, 0x0394a1c1dcf53919f8f9525d02b4d6dc81f48dfbadc0b8ee7463f7faec48aef5,
    0x06fb0d635433ca3efbc2756676b613868e3344c0a8bb32b4cd527055976488e5, 0x06b89f8c9b4ba93e9b608624e8cd2b12487caf28f6186a04f5b1b6b1c5084253,
    0x0081e1451e43a13b96e219c6ccd4b40706468301b795c4c10047a093ccd9d4f1, 0x03014b42ddecf025d24a849c210141416adc2c452aac820473d363913e7acc0c,
    0x0170a0fb49f66a49176f39d0ac315b680cc1156a13dc0a0e64bbefbbc3e7ff4c, 0x02e502058500e3e2460ed1792379f66cafe8a43d82c9fa4247a6472593e84d53,
    0x043ef38eaf4a1d07919b8cb730e32694e254c1915886a11b3695b8aa7a89e853, 0x06ee75c431550ecd0d5cf6a97fcc38bd00ed55c6a7076a52492c9f258009c708,
    0x00125f7644d2a846d78194d9327d4e99535b8224bb073a87ed13b0e91044d809, 0x054a0c26ca04c14e1e26f0eb3b75b9ab2abb30cb38d547afd362d5d22332ad68,
    0x01d0aafe2191714d6adeba6bb8b4bb98acc27d06950bf03f85249c3a7a925f8a, 0x008e17a355fb39c4b0ebb4ff0756200225a5f0eb374ecc865a94279c46a5188f]

/-- `RIGHT_X_COEFFICIENTS` — periodic_columns.rs:525-782 -/
def RIGHT_X : List Nat := [
    0x06f603035259d287960449386b86d4a1855050363e0828841729992cf0548ae7, 0x07dc36046cac3352a4cc274322967b84313e4abb45d1e8fa62600a70ed3feb3f,
    0x06edc50a9d7260c36677aa47b2c43b98a4293dc25df0c36f9da18210038f9989, 0x0523e73654b15d9eccd3c1aae96d6a1f8b0d3ad7a122c1ab8d52de6ce8203e15,
    0x0707ccc845f3519c58cada218e1a0e3dac013ab7a9d0b5950d9d29e450353e5b, 0x06bcd92758c9f17db99d423f4794842742ca07f172111e3d22f81bea9e488fdb,
    0x02a7ea1397abde80125ff7b909b9b9229f0ff6f908662d1b8df887044bd1643f, 0x0594307b78409a41f032fc55cce8bb033fcc81d557d7ec60fac82648c9044ed1,
    0x011cbe0703f35cff9ac8089902773fd51e47e15e00f2b1c7c4f9a32ffc770195, 0x06a8366ead522ea52328d59bcb13a01a8bb4cdfb655a633fff1a69e1fb5379cd,
    0x02a933577aab9b22533cbcd6323208a6e5eb124876c294ae17afc14d7edbf3fb, 0x06e2452bd38ab1df669c5e6823528ae0a016f95417fedaf16457bf8ac607b203,
    0x030d02d832b987cb7706ea845997ea7a47b89acf9dba925d931ca4a077236bde, 0x06bc4ee155d74d52258283a047adc7765350635aa02b37bd75ef60fbfe2aca01,
    0x0131931432e8ce4421e1efc113c96dd96ee1dab6bf83dc8ebe17c05cd055d234, 0x062e9ded31f36dfa620f582e7db2817fb7534b98bdbf195ae7688434867200dd,
    0x072ffb30857ef93e176bf55859f4ff2f40172d46bf65fa1a3ee501c09361f7b6, 0x029f261424a7ee3cfe5a2ed315deb727d74a8ac5ff964f3b05467aff2118b637,
    0x04df8937156a7710ecb2b7d4019cacd64c07053d35460194a5366cbd81ebe8c3, 0x016afc79cc8c5c63dab3b9ec57335fa9c6a4341979fca58f6c07a06464adbead,
    0x0257511a4990a74e14072545b15b28bb91c65f88e4e488a58b421511b4c0cb63, 0x00ea8c202f7f5679f078dd6d4990505d6e8ec13097c6bda3f21c6f83a1d5c5c6,
    0x059959c51b473ee2adb499c7ad329822fbd18e2ff74841c99f2249c5624875bf, 0x01524800151e6a1add1f0f1a1b64bca16199a66a15d4945a3c91bf5251111aaa,
    0x05e31adba670cfff4b422285d587450960d23639ab232ad6ac1dfe00da417a1c, 0x00f13938563c415c39cd8da767b99efc6e3756ef6250df2ff3796cfebbfaecec,
    0x00e18a7b852061e53cbd354a7e2af384325ac4bb729757e0c5b3035eb40bc680, 0x02e2d8b89a30883f3f518e87633f8f51f0a7ba59c4fb228803f42a08bd8be61b,
    0x03a8f5648083bbb8b12ea4506174f9b821b1fb942b6c80cb748e3cc43e3d10ee, 0x05720eece545ddaba72b1873f9bd00ee6f839c4452bdb7e54dadfd2a0adf2213,
    0x01d160bd2e7cbf8ab40940e8aa76efe21fe3500c6cd3472fdb8f3b13c1fb7885, 0x007288ac803012a2209fb9e1b37348df321dc0b7b7538adb62547b3b55749623,
    0x05e4dfde1f3f9c12f1754cf11661c3b2ea604933d39d7cb797667a5164e4366f, 0x007f5f6545e0ce829a39a8991d5ba99f4d6b0ad1fa96b724083d1183be8ada76,
    0x06b16cc3dc189e4b6194fc96f1933f8e3c4e79da41a60b67ce87e6c113ea8418, 0x065579a96995ef97d3083a11a23e64c375f50c3168df728d7e0b0085c93baa57,
    0x004056b8ce519f391aa89b53f0f075281677c26ba2eae8ce9ed2ed67d209965f, 0x046031dd658511988bcda85686b40aeb3a6d587d23c6ac53958e47c77c015192,
    0x079973c4cf1f78c2de59c49603d2dae3094ae2e55386c2d948ab0069ef8d388b, 0x00e69befc46cdde0cdc4735d73c99a192f96226af9b689e81edaa7424480033e,
    0x03b8fde3c952e68d27af622ebfe89066c25ce302a405ee550bf90b2cdbd37371, 0x0700c36b20c835870a281ddcdee5a1357978c2cfdbf64e7b19f7f2145c624b9f,
    0x050b1bdebbc4477ca2488fec78262e075ea7c5a6d8dd0ed926442c6bca46c163, 0x05daaaaa16a751fda0632207aeb95fabcf70cb11ca01b2980dfaf807f821df6d,
    0x01c13f33001c514e10f4db4cc19535d4aee7f35c0580826ba7ea74cd377ffdc6, 0x00acb62afce29aa156f508c6a6d52ab5da7d5b12c091c4592a0bd14949479a95,
    0x061868e66493a140e809452dfde9ff5e3f88a323c5224dc0119ed4a682a82424, 0x025a439e645fb7479f34e0a85829c8c39e09b9b4bf87f84f332e1c4648f462f0,
    0x03d9ab7fe769634009dd859557e0062cb9e5bc9942fc509c8a8c77a3a6333de6, 0x038841d93f653e45ef16223c7cf6d04560aaf0e3f1cdf8e4405f0ad5e71732bf,
    0x01e2a6330be1ff8f44505f272310627a78faf74062148909e1e721815e95770e, 0x04354d1f60555d2cb7ec187b6cc087d26bff39eb5984df3d8ab40d6d1f5dd54a,
    0x05c8d172a1eddbacd97d2b65aab630dbd4fc4cb875127e37f680283e8938c8db, 0x004c99fe6c0824eeb1c644e8b43d07bc65429a719e4ead4d22c1a359adff2d44,
    0x00b6784de5ff3b2bdb27f18ca5a8fe7f60885859f7857fa509d8807602a86bab, 0x023a6abe588efad83ef83f4193ae6a430810d5349840a38a7c7baad93876f07c,
    0x01bc6b37b7ecb8637e979c1360dd829075398460497b42235480129265ffe856, 0x0057689da5ea450cb81c60b4b4eeeadb044b85ee4acf871653c6abe4d8e67075,
    0x07bffc4c94fa7b30cbb3a92a27e6127d3af0df508b36e7e9f29d7b9a9f54545c, 0x01e43ddb8fdb17b7cf7787825de8d5f4db9398257f3b56eaf3617c45fdf0aa53,
    0x0610507234648ea81fea6ee4ca5e66568dfbee2fc069e1a1f63d6e9c197585cd, 0x04080e743b3d83bc3dd2e6ce3833f0bfa95d1ea8b03c8217490769950c6dc97e,
    0x07aa97a0400519e16c4680fd5a315c6965c4f931a274055fb3906e0d71a4e623, 0x06334039866a2fb8cece4ec51b2bcad4d4853acbca6ca59a56e68692cfc163f1,
    0x0131931a207fbe822bc76f256c0b5229129bc4a843bb64da190fdc17abbf286f, 0x0011652504e03eab5f709a58974de936541c48953c0bd75d8895555d0af3dc5c,
    0x033d704c1b5c26f7a3e010d9daac68e8c8dee3f7ed47ea3b8b1fc6a61e1dfc7f, 0x07af59a9664ef15abfb2e0d28057f5d1c5bdc2e83a9448423fbad2dc13330e46,
    0x070ce77db5b2c619799e4a0694631f6a8581bc25ff6e825b406c550b83c5c26d, 0x0073872a26ec4d40fbc4f7b22125e5a70756fa5df994abef249f27436854ee1f,
    0x059a8588551955d9ae833092b4752f7be78f58cc22b80b8255a5690df1db4548, 0x0751e96b89dfcf746c7c63aa841e48bb2f10d3e2915713ae444961335316f773,
    0x049def861051660704ad03ebbea664bb9403037e3d6d5dd548d0bd6174f646a9, 0x03ee030db9f62b46511b71d694ad31dc1518c8f65197241dcdd49773a4c1c5d6,
    0x009030caf932e5364699f7f4fd78bfc41242aafb23bfe0c7335aaa95ed85a160, 0x07e0cf28dff178bcdc9088171eb4498f73e9bb7e58fe5438128ef271c2cd5d3b,
    0x0796b6766e256ad560d93636d18584b0b2a5d1558e05568b1bba94ac6be29332, 0x0169cc3bfc005c8892fdc70ad7edf5f0db05d90f4b8c71eb16efb07ff86d21a2,
    0x021eac65b77c01701e21f54888cf863c9c202b84fc88feb170b7afd7ac60c1e2, 0x02d0e9112318c49b94c15149fd001e4d7aa3a3368301a147a2dfaf82b4d48ade,
    0x00b86e23ea194c33addd20441b9bdb8a86ad4683ba3326504f5725b66c1a95d2, 0x0121710bba07f4772d3194d24f9e72a0fb444914237f4f9f6c7f2cfd0a85961c,
    0x04989e7f98a4c94566c061da4cffd094a259e46aa7f71611c4962e3214888e96, 0x056ff0a9cd82e9b101c592675908efdb84d49d10b18d8fe9d14083d99ea60dc0,
    0x0312f1b360df9122c969c932c0f966076325e6a9f48c4f0810866c9ae46afe14, 0x061a6f840e35a3a37b6be3e6a20d16fdc006129493e514222df2e99d1bc1ac96,
    0x049da0451f1dd6f909f1fe0df587eb5277953831909bc8b284e456b502ca0d5d, 0x053608b8c858e80c2f03b0493a7b12241defe96cb7e3d32f1505141d64495814,
    0x077796abc22de11912e815cb2064113110d1411b8e5bc5ee3bf5fee9e0eb0a48, 0x039e6976740184e5b5aff616eee344014072ce5771a77fa9a0a5aaed28c16c06,
    0x054992144f13acf04d34719a881da26836e3b512e8b690b7e89a57ea363a814f, 0x042bd6ce3dcbf0795eb4bd179e0f7e407fb8b2da1fac3faa940fff8b77f3567d,
    0x01658362a9525362333e5b6a05a1be778b45092baa3e5fc9b0667e0c21e14a6f, 0x05edf3ea09d62d3f9f4a88b51efcaa2d4e718601523a5126deff5fbc50746d2d,
    0x00e36445839514289d199f003abc45b50a2160b137efeed425b819d597c69706, 0x01a7e52bd14da5890c19021e156cba32ab0b635df1adf9f40f4606494bfb5895,
    0x05e45ebbd2ae56bc2c1dec6844f2bdd9895ada9b173197284006ae0a82a639bc, 0x016ee266c3e55e6f12955f1e9b53ca8509f34f1d30b354311d581b8fbd813bad,
    0x058a83c0bb612351931321c13731c4ec743542fe6c4980046931fac213dfb269, 0x00add7fe3a3533c5d5c6eb748f6dcc89d3b68554630c8fe1d628a14547fdda1d,
    0x03573c95d66867c02105a22d878c8f2b076c1432c49b92328845580e4e297429, 0x05d0888897702452825954a713696ed2d1496dd9f31c13a72fbd3e413f43fb1b,
    0x04f89ff519258436f4856d4b68ea1aabcb4c21e1b734ad429fc0ac64f64db7ef, 0x01ed3f0b59c33595028b636d0609bad5b51cc4717c2d18e590906a88028bda26,
    0x02c8866175c05a81ccbe2320776621b2d31e20c1afd8c43e0d3e10e38a70c77a, 0x07350e5bfee552209cd4c32331725655117552c8364424a38918d2bf72db7a85,
    0x04f2bbf4855a19eb8024b190af9a915e286355e95c6838719cdd7c15bf5b3f26, 0x00bc1c85241ee7516d271887bdb0306a2361691ba0d3a04ba80a409b9080a114,
    0x0436ebc7ee3b6b8cfd15145305ba7c9a1667454e6602b91625a8245ebf9aae38, 0x05a2f5b2a8898cc5d28274c31ec29491e58eb7e11aaa65313a975ce78c75ee6f,
    0x023d6395496230f90beee7aa4e40915cd1133e608fbd635e45f229748adbe8bc, 0x05ead481d9c8396f4a13d98a91c1bc9015ac72e67c2c1cbbb8491707407e4caa,
    0x0438cc60723f694314bef8f3cab4465e864970ab63ff4c389b3923ab9be72497, 0x0523e74a8777c76a9f2d01adf738fedf4f462484664ed9a01e2067eab12685e7,
    0x038121277eb2a973091839b173f315f97a39b827b9f5102e7e779ccfa61c11ec, 0x0371d21f1e846efb141fa47beb3cef04297a3cf20da48adcbe6a71cba6987b60,
    0x06adb4731f30b890a9f652158495f050635ac7d48c69d54af96b10d3c8e9570c, 0x032cfd5ed8308bb8be3962168d5234fe6e4a5a83444675e65d492af33dfb9373,
    0x0731a3f6a74a7026dc71df86a95c60613ff273dca5016174d316fc71b6020912, 0x040f806d2d7428920e664458563c9995fa971f79b78e7cd0ed321d13b3b6f819,
    0x069e0316055a8ffcb4c2b59947047e566ce3250ebbf0850845fe15e470539728, 0x05fbe42fef09dad5fb3db612f9330c36bf2d57bc8b7ba77b820778510858d563,
    0x011cb334b9d544ee4dda46fca4ac60f66f5e79931ff9e833e07ac60287a0ecad, 0x04df0e35a5462bc012a8ab7941ed864f8cdfed4a0d61f9be23415e2ff32ba782,
    0x00d5b405097c4273b535b6146c9a34dc0b4f6916127669433e1f8589689e5766, 0x026335702fd2c9f6ef0e5defbd103e1262b62c0904a56bc4e7b332b3c8ff9633,
    0x036f942847a6c247739faf375415216b5fe91f25a8c4072f45ca9ba584aec9df, 0x008b38a0397038508e5f1d0974ab9df926bfab875922c8569e9c8ff884114dc1,
    0x054b02cc59aaccbffd9de68ac671289d4847c20da2c201f875798f66f366d42e, 0x02fb58e1e954129e74b5f8d01d0ea2100c1b2597e746e86f1f3e358fb0eb62a7,
    0x004366e2e1f1fd489fa2f2ed967d89fe9bbccc51ec4168d0ce52b0e05326dd93, 0x04448b9b443589261f3b6c038e18871aa1f6548bfe3dc6ca3b0bd7f89452c6e0,
    0x04156b89bc8439cf3b0a505d4e141ec815edc0343d8635f3697720b3e75a7e5b, 0x0699f166838c5f692e4e06422d2d3bdc665e69e518acb3060625d972e7ce4b65,
    0x02318ac43d8417525344ce73a5990f200c7ddb2729c377c5e1671ff934763aa7, 0x04b0c99c58cfb5ab03e3a70e739926b6547e544ae5aec921a89b5ba364e9ed57,
    0x016e75ce7a8357de86219dfc8ad0b2d0d1b6c40e781609aaf8e6968efeea4c19, 0x04cd319b2e69efb133b01361d7a8337c47c775241091bd8e48824ce64bb859a9,
    0x038e86fed4bf2482243e40bb6a07db93a33293c668f85d400c2f0c930477f5dc, 0x0623f4b5edc59b68e4c6d256ff80680deaf77c12f3b5828e19cfed818c5674be,
    0x043a7b0c192f3f18826bc44dcc5dcf1057bbdfe28a612e0665f0a9d6770d9bd7, 0x043ac40880ab2b3245cfe7bc1ab1cd42d008a26f3dabe9b519cf437b03c613c1,
    0x05d66a0bdca5875be87ab523f3d7f9d63012a80845bab512bb23db3d18562952, 0x006a445fff3c060b491e2e2498a410336e68fd204985933019c778c3af3868ec,
    0x07e87d4f1fe5567444d7af09070558d281467c3adc84658d3537b9a58172d63f, 0x037f7500a25fe04cc813abbea83839af448022395d2265328cdb05f2d6dea0a8,
    0x07df7dbd274ac85727c5990d5bb8f7da9d499863211418d3a796f6fd40fc9d68, 0x04e71599e47b66c6f603910f44788c077bbcc9f572f111f4e74a1492600c824f,
    0x05e762cf2f7de366082f00ce0e02d6da0be88ecac57710f064d6906b10ddf49c, 0x04943d8e2fb2005e9cf0ba712ae483b8a7a1b9ef10a786f3d85fa6f5cb7ac90a,
    0x034f0b72285bd8fa4b21bb1cb86934bf31f2dd2b104321c9aceb44c7f3a9d713, 0x029e38f52fce18673f38dc7c6a7a05b11f1d668e3886af7f7edb40accc8b389f,
    0x03c3f7065d88e2e7acecf183bf19aecc976c6138a3a4fb96487f1a0616c34054, 0x0080e50c5dd40d0d763cd517f407f6693643c523f60deece96bc2282aedd565d,
    0x0431aa7014b6a7cf832cc670269194fb55336341527daf00663cfbe29a474e85, 0x0762643c63e659758c16934aeac5b290e323f2840d2f918c06b7db3b323f063b,
    0x0731250eb2ca2f795e621f808dc956fb66609b1cfc4c255dc57fba2b3723d8cd, 0x02e14572250c2913f5e2b699dd2a8a206533a9ac25e52ebe3d9605fb6d28efd1,
    0x04af8217bd295be4e499ae883eb05b205dd08ad370c26ef305e1c805e2973dfe, 0x002b8f5741021cce068fb66706d83e9799ef968b92b22cacc88a1638b9ab6e3e,
    0x05b44da04dc35f1bd96d415ae779ac801591c99247ef0a9076e96d843b31e633, 0x02bbb60161b2ecd968e770ff1e0106685e79486ca702abaf431f862c830f96ce,
    0x02ee38d9275eaf605f3bedb66f1f6c4087276c721d293e928594aee53373d3cb, 0x057263cd932d2442a3e6b6f350f515f8a8766350ebccc50fa10528ce87058216,
    0x00370cbcfe3f0c7c5836637a7511cdc58f2573ab6a9b653d85a6b8834fc63e0d, 0x007eebc25103b14517e923c292b7bef622d651c9f3a6bbd5fad1931a2543bf7a,
    0x05f94b39cc423041bb7c1f78fd74d25b0fa9ff0d02618109db67b3215f64d840, 0x05d3e1f3de7299c958de3759bdc1a03f3c38a5b764a3dc80c6495aa877189564,
    0x076e79fbe3725eb007d8719147c2eefc8c31782350ff07416bc073e3d2f0257c, 0x065e816f4ea64f1c285be566a1b3fb3f7fdc4e9c871e835a27c5a53e9462e795,
    0x039e167c6f0ed771d930a913cadf03af0a9d76f2b3f708228f18962cc578455d, 0x07aa8e696ce66b05036d9317811b0f991ed869669ea3381b19a333396df1c9cc,
    0x06b7956c5b5ce677f6798cca2438d4548eb5260c10d05629d6220f496d4d4354, 0x0280e654424835c2c909fe3e404b2dc94bd22a35ed9d00895facb6854de06a1a,
    0x04ad3a7fb6f4720eff82b8436801ab4bca10d54a2587ee07e17debeef2f7bc36, 0x0428908439871d63ffc25c24e13d7603b7cac6a9e16d7e3dedd1e0d476755f1a,
    0x069141318e494cd29b74b10fe0e823ab8ab0a4db2fd16e331b7962c26fc9e8df, 0x060d940e7b792e051df3eb0e4ced3f4f2d8b8efc87c442ba653c48935c04bb42,
    0x069ae5172fdcdb9cc6aae8afb12cc305b7e002ef90b530afb243e4456666671d, 0x02cbf3731a6c5e522c0a1050e21d750ba8e62e173b34488082504b0f43e280e0,
    0x033268bdd67a02cb4ec9ca7ac8b140fe1cea631825ac96f36d03d4a7d4cee47f, 0x03d2a476707bf963cdba09c0b0fd926f4f70f57f95edbc61bf114045f24ee198,
    0x055a057dd155ab9dbd86e2d17f65226e30aa268d47ecaf157681b5576d7d602b, 0x03652790a89303b158757d87327798e5a0c23e58803139be700227594b81736a,
    0x0205091f0c0979a9bdb63ce49b66f9340639049126d5426a0dba0943473aa033, 0x05c2608f93426840b396159ae3a84c63a887de0e67329f5d394b5a436e31c420,
    0x0617d9ad9dcf73786fc3f12757dc876c61fc9221cc0166ba74f44dc257e78339, 0x079fb6bdd56991f816a678fc912771d71772079cb4f899f2fdaa2dcea8c7b0a8,
    0x03568230dfdc7b3db1a5ffd1cbf2c1daf614b618f76f282e4522860f6fd754e7, 0x07ff710983e63d924963ae8acbc9a1255aff7adb70ca77e4da6de1149eb2437a,
    0x010b7fcc30d12ab0c14af5a5f1afc8ac3ac28585b3263aadb8fe3e786d06fee9, 0x02b911f579fd2474fc142d3d05d83bc509713d689afe084fa96b995cf0fa2b17,
    0x06107e398775c6af76cc09201ec3cb92baceac829dfccb3243177bac1d555323, 0x0125468de72ee98327f24a9e36a73cd9db5d369d6874e62afcf24c6abe2629a6,
    0x04dee3d44be8ea733da0998c08ef2c3412161e27e340e2ee1175f4b5ef868114, 0x01aabe5eb0e3ec7a03aa46cdba7be5bf1c2537614c5a5bf5231aa5ce3f0c5dcb,
    0x0165066c53ffdc2164ce189424c5b9ef2b8815e250b557c006c0db7fcf5b01ff, 0x0051c53461fb1a22d5aa7c6f12148b9ec8c29bb508348c7a5d5ffea4cfaf4d75,
    0x01caec2355b32264c2fa9de09ea45e9c4bafc3c51b1d1f732214390541ab3360, 0x00dba56995f685e4d9bca637602f23d34ccf22ab4d8245f12c283851fbcd013a,
    0x04ea75ac2ad04d519d3ecde4ac24fb5cc80071cb4e9bba1c6b964065386372f2, 0x0578a76468223ed854ed8a0ad9b189eb25efd0a505e1028bc2fbffb4d8753dd7,
    0x02e6e2d3b6619ca6ab0ffcece6ec191175be1f37a1ac0d2e4b5d5a0324433db4, 0x00f501b53ce118289163e4f7bae3ad7f08e08cf62ee5b68439194c4f0fe4f639,
    0x029e65740149eaa147ffe397b9068714472885684230adbedd0655581eba06e0, 0x00495249b68087f6b541e7f1bcc68016b62ca7f07ea217b2337789d235229af7,
    0x02092d4fc36aec72c5c31da25ad3f728469213bf318ec1724e49cd22711f1107, 0x06c628cb46a73ae8867e63a50be8da04540157c6522765bbb247ea0adbc8d5fd,
    0x05678412c0684d62af5a06a49d1e039a958dad0388b874787cecf55888b86c3f, 0x074a53cff9b0c6978ce3789e85a0635803ba689982e895daf2ebf2c55ca7345e,
    0x058bebc1d4b16efbf993306aefe56ce22b6b1e026bb9ef05c01da1aa744b3c48, 0x037fd2902ec710d10da824ae15b39829b9459cf1a258a10ec178de275e9b443f,
    0x024b8d60bc381144cc31c40603f94d471e5e6b25de7bdadc29bd0fa5bb7556a2, 0x01e7b51070ba8dca118e1ec4ab0975de1beef7ada2548c6bc47980164fe08625,
    0x0503fd0f2c2d86bd2e4abb7923d137389d1aa8f546ee575bf2cbb76a7c0d2c17, 0x05f9892314b3aff4715eab9fc2be7f9aa3e0a127f5949dbe731ec79725668dd1,
    0x03558c291e26dafe4cdc159096a623703d835e14b811a8c275a9387bbddb65d0, 0x01b79ef228429a298ce8fadc3f49480819e63932546c798bcc75742fa1ba818d,
    0x0074098c7bdb05c7985875a80cd0a2c783db46ca0bec3c6c255b87951aa15109, 0x034938c30f8510ab537ed749293faad41bf9faaffa241b80a5df7f7bd04684a7,
    0x02a0c2c069a87c17778d811798173112409d1e4e06e2cf2df83eeb03db9cd3b6, 0x06bd0dc83ca99a9c3be30c03b61f04e6a4f092a0ae97d846c9db52dfc12780ae,
    0x011a82fcceef57a1ffe452b112b7acbf552d2c06179c545c6c0ae8c02ea492a4, 0x04b23fff000f2c5c0a4d71b05d8b65a4118dd7457ee9318555272e302cda1e90,
    0x03830f91525cf8888ddedea85dbf2e81722bd76ca9817d8d3fd1807e696b0c37, 0x055c0550d3f97f5d41c5f91f8b4d22f6ee6a434a1cbbdf9acb474233938311da,
    0x033c41f67ff5dac19cf4155c87208c671776717f7ada9ce574bc2069584c7750, 0x05c3a01415f5b2bf7702b8669c269e2acba853feb4bd2ccc813d765be03fa644,
    0x039b27908b663900e28262cc735bd98b163e0936d15bb52799aab34e4ec75ec5, 0x0407507d73fcc7f0e3241fdaa10c118ed7e8f021190b857d0e5923c5e3d3d595,
    0x008f7ae3e44cad2ec99651f9fa5585640739671479058f173ff49d78d20da9c4, 0x00add35c1ad5e70706d4a8b02401a50b440fe1db63cfeec174616fc5c41577af,
    0x072269df46a9b19cf092a1b355cc366ee3088e359d3d1adfbf3c44ea85a28cd2, 0x0742f751607f56366c2677746c33a4342a59201e21e506d5c124780abbdddde9,
    0x04193272575f17e6237eedfe214125e4be8ba3dc2df2b6cd0ee1c1c10e8b5593, 0x0701206b91eed1e033852fdee0c24acad206fae9ff06a61a7148f41a92cdf130,
    0x05b3f6c725cf619c6d434f078a09f8a9548fc63f8957444630496d93df481463, 0x02e3a9b6f28629487d0f65a3bbaf62913ba841992a0d9223b526f159128be91e,
    0x01540059a34b9d0524f11ef8ebeee200c5d6db526f0c76f56b9e6ad5723e4536, 0x01d19ee0d37806ea369669f19c077b7d738f9e2c94dc8906acd94dbf5494a716,
    0x07cf7449f2645627f5cf710f8134750c384c13a57edd5dd2e7193a1d1bea2e09, 0x0794867ae767d110d7762ddae61183cc8616ad192733710e5ae2901fb87f18f0,
    0x06350ccd43d344b5382cf26c0a5c966706b9095476eac1bd18549b5a1396266f, 0x001ec3ea85388b5214fd6451cfe7c70c60895e42de6399259cda4bb56cc7e9f4,
    0x007d8aba0e42402813b9ef0d2c915fbe253a79a4d6f7e87e49ae39a08e6b39c3, 0x00be6f125912d6c4b08705bae853ad603f6a9d47367397f1465ba5a5a41399c0,
    0x06fa80db8bb141787a91b1f911317ff847c506326d49655c791d87c93c99aece, 0x03f373a5d80019150042c48235d8db6d5a898ccbc9e814797535a617d7c9a53b,
    0x03f9c124c49ba62eb1d982256fb09775815fa4f9c60671bd7743da7328a54534, 0x0185590b69fcaa4b9dea9cc29fafcc803f19e090ee3af28ff02797e404dfbebc,
    0x0699c98e22f304ada659ed8f7fadcad614e397ffb54c54e746cea99ed975db12, 0x06f39a2e7a1edfd8a2800c25765f91f10017e544e97b619ff1e99da0e36cadc2,
    0x07ddbcdf1f445a96e0ee1711cbb49758700f448af343d3f5cc061e896523edf5, 0x0264bf549b4348d74fb1a0f44e3893605b583af5a2d346f4977eab4e809c7fa5,
    0x01fc441e8a221dc1b25fa7a84e8580b57b3a2a64ffa6e22febc08389314f39a6, 0x00b15a7e779b467a99c59cf9f8a1c263f076058c1586b2c5179aa6e1c8ecbac9]

/-- `RIGHT_Y_COEFFICIENTS` — periodic_columns.rs:784-1041 -/
def RIGHT_Y : List Nat := [
    0x02ab33c443dc0f34064ab867477563092df9cbd56b14b519c3a6b8fc98de01c8, 0x030d20a6e56a93adaea7c76e57fe7ddd5aa61db719df20f450247aea39209a30,
    0x0445ebfa0936afa075ee00b70c2427f723dfb0c59d5d65cecb3ba5a7e4ba66aa, 0x05ede384f6553ddc23a7f2b6e7d3ace5758642e98c150e55d70ece4b873981ea,
    0x01d6e115dae812eb3b42d3178559f113da3e638b9f5a30fc9d6a4710a1ff0678, 0x05a9fce513dac4fb36e099103ad4bcb33e89754cbb489759bdc530ba9ae94863,
    0x0333f1a5866efd223fae1e7b79ffd0ac2caf7727abe7c90ec6e8c09e7099f6fe, 0x0267d9d120270750b2b367ea6356c71aa921de102f56f868f0e43725086ea6d4,
    0x065c92a4275c5328eebd0ec9dbd64a526b5336b8fc12aea9a1988f6970a7294f, 0x025ef360ba34f7f0b7d6525d5a048026079515f365b087bdc9e22a782f81bf0a,
    0x031a702805ba836c9ca57e6134c00673a384837467a4cbbdcbf64c8afe8db994, 0x0092cb742dbf6a2a23ba59b6c3d7c0d0832c7ea42f1190152c3110850dfe58fc,
    0x06fbc04846bc257d0bba4d32977d517b03f0507ea5ae13fa1fc345fd2a3b093b, 0x0365752053d8e6b6c9256dded4b8e4c0eb86f0846cbbac39dd9b977dc5741ddd,
    0x070e8918cdcbffbfc641664c1a1214317125083b693f0db9e9de5eab7ef1d743, 0x00a9f57f65698e5bec6668f0e2937d2f434f9c7519ba82a0e67ad5590b2a586f,
    0x03b004e93805a20260bb7b856b86963f410e5a634e6072f7c57c8b922c971163, 0x06f79fffbf4a0d4ebbbb510e0e3d4a974733baae2b9ca013a62f973a527baa79,
    0x0406d106fb165a75ee6b8ba520544dfe8882e5fdc6e0933011ebcce901b19dc0, 0x008b125585b7723d6793d32d229a0e8865f2bf2bb9e649ed9d26fc5b5fb13a0e,
    0x029fba23e161e71953d2d54bed2205e71c02d115062a277ec090d71e9b3655a3, 0x0224d6125b2798851f5e78025908c8011e4cb331fc1d0a0c18703dfb66a51f4c,
    0x0220fd73afac0135ec974c49cc4410aa8b426670c1f048c06ff49a8323dc84eb, 0x03887752e743625f317f3db4a1e232e6975c19e20a8166099123f82a30ade2f6,
    0x0542b822a083837eb3c4007baa6fb497b95999dac7ab90e289c9e8825732dd1c, 0x0726ac7e5fbb465bfc7e76556f015259eb64707c7dc21bdffd77c05fd2e461bb,
    0x075ffb1eeffe585f8e2fc77818a71caf1dedfd2330f5283d311393a15b1a758e, 0x0183d2937faaf8a80e5060d6f9c4309f45d69e05748418654a5992427d8b2e3b,
    0x00586c22568f50f660529762781fc5360d7a91b941615dc1f7e0dc0267091021, 0x01e81453d4f639840494ee730b077e75879c176c0a1eb371d9e322921c30f185,
    0x016ca0dd03a23b0c51f407645783c50d6a9cd652792e92bd176606e447d2b9ce, 0x031424804d5ee1bd22f592c3b54bb4c38b8803e7b21bb7c43c471115db7762c5,
    0x02ce8c3e060fe22e36b5b9590f69e7c62625be6edb62b0f77f7c0ca7fcc95ba4, 0x07bcd67a33591f3efa8e7062227c1891f8a1c597ab06710e163ef858556dc01d,
    0x01f1826a0b15b50c71c8790f87d9c67a87be73ef62e98a2d93cc65fdb626ab96, 0x03387aa7cbf4577515b6b051d9cc9b8dcd41846f334a45e4f4f9f58e12798f79,
    0x03d094f30c077b6b10671bcb116afaea76a9c7b0a3d7efac18d3bd63c595b7bd, 0x05bd7c0e72b2f8f75f01a7cb23f2001e3d17a067e8dcf2fd76acd0648cb69a51,
    0x0337d7b64278ea303c30350e8f1a87f13c74cf3356cb7384de1836aa171af4e9, 0x05efca2a7c521f6c9cd22dca558bad1cb7bfadf723c29f4bb8cdf2d859c249f1,
    0x06c46f5686cf2b41aa11bbc20afcf8e6e4048ef0fb22597a98d7734a03b647f2, 0x03c01ecaa44b8af1c53190416b7b69ca720e6e2237462b84f2f2c2a635582d66,
    0x074e5c381519870bbd6200af123d8aeba4848d6989838f5cc327d831501228e5, 0x069e8d5cdd8fb3cdd1d078b821a444781f32f7b7d347a7c8594b440a923accc3,
    0x0751a90487aa40765925cbe90a05a9f8d923489fdbe4c0e3e9e16902d4341b8d, 0x052c62d2d346e020f884054f363bd694ad79c699f67e5316b4053cefd137aa97,
    0x05ff20d14e67ff6d64742122fb62692def4b1df7c210c06044a885fe5e233b10, 0x06f6cd40f8d0d627bcad7566a4a1b46177a9dfdc1011634cdcac9d0ae3c61230,
    0x0477968c9bc746b70b55eecb8e2549a0e68972757f768b696e8f31ed0ba25c4b, 0x00c18531d1b45478ff92e56bcb32cada0e33845a4cea7ab3749c74ba1b56c51d,
    0x060683ca902dd6cad95bd709c1511f6913f7d0e98b520a4cb05c2fbceaa5b2f4, 0x038fa88c3250d5d2bf8a0b97e783c5ff9ecc2393347591f68e8b93b64d014093,
    0x00774dfedc552f6dee0e388a4c77ef407633b4e5c547b8a3e4a1c4d4e304878e, 0x04b2aaaae70b1672ad2f9b5edc72f51ffec61910a01e5e17ebca7f1442044891,
    0x01bdec33615b706853b413f3c3f9e68fde80be0cd850bdbc9b3ab4bca17452ed, 0x0541f533016ae744f2acf538e652fbd8318cab686f8459c4fcc8b0cd2e6cea4c,
    0x003836b2da69dede51386f4364a5cc52424eb18fe6c49c813fad79e591be74ff, 0x00f160f0c78f34a527a2f5e2f4dbf8d64da615bf0b4b00bb1586f02a82300c31,
    0x0323af9dbb9f26104d0c5534a1891158a6d78dcde65c4f534397963ab73df821, 0x03b43ae9d8d21a4288b71434fa72494bbf501664ef2b70be916e1dc1e40cbdfa,
    0x00211ae45ea5d119fff8e7f073f5fa619323c454ea1eed02911307cdd6fb6870, 0x0047dd487dc4a935a3be5354ca2ca3795f39bbf57632b32ed38f7f60dae3cf9a,
    0x03d224cc088be22d3b637ff845cf04d2381cc1326946d0e8c06bbac519d2352c, 0x057e7f0299565250db494e0e8faa21a1dd8a6151a4454dfcc7231d45ea137e41,
    0x033d16e25741a06014f72b2b4f84a0963f40570e1cfd97570cbe6af357bef86c, 0x07dffce9469df8bc761a67a27ca95014843074f75d01a8d7a1a025c43acf405d,
    0x07d86259504fe2bb26f36b90ebe06526e4fa71dde97eaeb84371c3e0c803a802, 0x07e309c2db8ec9cd77095479541c10f6027bd88f9834c95e6d2fe9eb74ee6fbe,
    0x064fb9485d55e37bd55d1af3d0918c04c0b15105d525a55183944540228898b3, 0x06d7884c771968adc259a5a1c4f196f0f27088fcce481c2911ce211d7f3aadf7,
    0x042f2947fe13f9fc051ea2c716e52e6b3fda35ccf895c55945f755d0f2f4f273, 0x04f17edfc75e5a2d193152defb86da87370e8160239bfebe0ca3a66a933385e0,
    0x07215f243024a1b8f3cca596b579930d09947d730e87a3341cfd7f44f1638938, 0x028d07df4284adc706eeb50a50c463578f6ce7ccd52237ff34114fadc470d6ac,
    0x07709f166880dd85872e4165d3c466cf8cfda2c31978ada3bde52134ee04c2ee, 0x05577237824f934fb0161953a9b810ad92b6cd4a7d2805c71742b542f9673487,
    0x02c18bf2a45a8d9ce36f0eee0ccdad99cc7b41785c79f9fa92b953674052e21d, 0x02d476d9fef4cf0c5e964dab830798a94814e00dcb2fb5c0b467add5289d8564,
    0x06c4bd3396a971dfff1cbd539b107a8805ff6374be29b6f70a4a158e1ad9ce2e, 0x057b0cbc6ea9689e6ed3464397e234185786154346d67ea76772ecb09264175a,
    0x0334c0bd333586e709fbac18b1363a8d74a7b6d86831c6c6128f8bc794ee7ea8, 0x02a060c025d1c9800009dab5fb0ef618dc2b3da8725e1748a70f4d0e1c7c1d17,
    0x07d4da5c84f0252f0ae95625acdf7c36bf27ae754e07de3c696dd4f398d5bfc2, 0x0010fe7a07836d706043c9c97957f4c295d5ee939aa80d35d11d597cf9e8b33c,
    0x019c3ab437c6e856e1bb97a9e6b0b6b4f7f43d518e525cc6872c798653796ebd, 0x02d1c52d991e4ffdb2736d289f23788dceb6ab774f401831109b053820591edf,
    0x04738b7438cbd608cdd447885a18025d26d3a4ec69425f26a62a9e3ddff0729a, 0x0286aae607c644e10d332d3b7c923b6b0b107df3fb352918356ef5087a68be4a,
    0x03e0878de1f5f90f806af1da23bfea45391e8f2526beada55b9bd652e9fe193d, 0x02db7008668d9c04e4017c1b7a562ba4509436328ccc8761195d4ca987805f03,
    0x03d20c45575c8246f6c4b0256c5a3c8c00ae9f9a0a607f9446de857954e993d3, 0x029e07c28b89a9def18f22e4a1e455b0a0e9b0e279a6440d16a8d9ae40e2ae84,
    0x0519a3fd410b0657ffcfb7cd4e2830e16523093a745204111cff0ecd475dce11, 0x0525cee7a177070d0d524078c2486b288168004c554c9850ee655da4537eea40,
    0x039c0c8c402ca2e73a7cf57de0bbc6c998f751bf23632aa7a0f6f7292f8fbd8b, 0x051d623a94b3f45098a1fb6ffb310c17511cede90d62b87902aacdd6eb3bd004,
    0x05ed297fe39b9b73ab59bad2b40f600d95267e930abe8123c92ae197546ec2ac, 0x04e21c8b1f3dd7b05b271ce6d13364ee783ca8003b49e2406212056bd7f631e3,
    0x040b0afddcb90a49850b9db0289b00a83dde1a69860b671576b9edac132aadcb, 0x06be94f47acf55c3193fcf31c4c7bf328830c262b261c20dcf8a6606d3d9ac3c,
    0x05a8aa6dd9a532b0ae4237cd1b671f4392c8e1e83ad24ce991089872061082cd, 0x0061827e34598df373f4ee6291bfab3ab3633fb8a7b22235edbd26c0ad658426,
    0x05f51d25014c95d69f36f5d5fd8046fb00884e6defa6c46bf547f91c3317a7aa, 0x02b6c269ef2f973dc2ba4bd7699bbd0282f3ef79c215fa62e3006a3e0e35717a,
    0x00fc123c98f484ca92ac94735bc17734d8ffb300fe787a87bbbbafb1f565b4d3, 0x01a4e0d95d950c0d54045feb270b8605459f0e94a639cce2b68359ea69199884,
    0x06a4d6886782d135bfae8b980ed94f648ffbd834a1175b0504e232271b5d4777, 0x04f91dbe24a11f16fbd75794ae92d500293ebd512d359be91ad46627910da9ee,
    0x03e8b37653ba6a3cc0db94844de9139b03c80fc7b78537fadf86f17423bd8e9d, 0x0356366acf9781893bf67da28efabd9da93d24ae1262bc9dc76c723e5ea9b9ad,
    0x00d71db6d15a4ce79bfd89da80440741b0b50befb4f581a37d680aba3713030b, 0x05294c66e383b786c7e9b7ee8dd9c1bb333c33546ff1765299a88fb814a266e0,
    0x03b727a85fdec6b2705ae512063378cec0e75c811803d397aa3463d861f5b299, 0x03e4904db9c6ba0fdc5ebe5a95c8f6f7b661bef2c3016ae47822f2230908e60e,
    0x039149f31767ebd0207e7f97635684422a02c9fed78984287cdce2c47c40c558, 0x004a357e564f188834bc66b3cbb1eff0e1e89faf1643b90bcdd5937fb9991e94,
    0x0286bdfcb2f2a000586dd5d94551feac5bcd7eeafe9feb32f851639a843ffcb9, 0x049b020911619fdc209ff32cbf8c083f7c23eea330d9e63278562c0758e5c1a5,
    0x06669236022e0456841a09105e585297f66bd075d1ac24aa968b598b37824d0a, 0x01bcfb2474e15700058c7f0820b321c6fc1af2b01d335a315a60d51c9bf56a15,
    0x06676504d6d863d0c6975aa8b44c2db8d50f8a2ac63046071ca7cf426e256786, 0x031b67f2e291db478ae4acd03395c40a83b51911594d321d917bfbfa87a56252,
    0x000b0aca45836907f33fe8256db34d87752f67e781f2d38a40f519fd696d74e6, 0x04872a5586d20199024704ae5deb9ed4d0325ad38e9f410a43df303512486937,
    0x02b62ddf30dd169e363b72cd81353f94633eff4a9d9f1abfa1af3bb3d6c68c66, 0x0231ac60595b25417108499f826524b540a4fef4792a9036a12e8ba91539a335,
    0x02eaf4ca42b7258c922725a71e46117c8f48f68da267b122e3869ba4781a9fc6, 0x06e6949e339fcdf9fb29d411bce07ec1384ebef7a12fa14183e6a3af7e087a39,
    0x0463ce9deed943898f3c3e418af699e068e7391b12cc43d02220cff794ab08d1, 0x00cd254ff8875b85214489b57d9071ceed54c940c8994b75c697db8283a9b24f,
    0x04f854bae01d0b8ad256d75fada1608bb2721554700e1b826705ede89544b8f4, 0x0539123d4d531bab2f1dfaa580dc3ccd8b206fc85dbf21e3110f1f82adc7d5d2,
    0x00e1fccdf86e5598fd71ba4fc849b4ec3cf01760e40d084e129a33cc39282d19, 0x078112cb1cd4b75182577694ca9f211978af87d41a19d7b6960ded8aa866d195,
    0x073d8cefb8234984a58790887b1640d709d066300d9fa5383fdb56507285d88e, 0x0045d5fb39ed0390c3b5cb166b06366ce7d397d8f5b8fa872fda934c51c61dc2,
    0x04d283ab6c0b7cd868ab1f7b3f3f4101d6d70301991c0b850669e37cff0c3647, 0x042e760f92edb30258f48d6963c3b259af8b42dee3f9ae0534050e7aa78d2ce6,
    0x07cb63a9944623308b2b79902b54f6e1d3a6bf37e4f234c2bc145e08587c904a, 0x05baa97d1f7834e82f7e0f571633b820a11af5c403ba46ad0da0dd6e8c8ef3ef,
    0x04ad19dbe82d85ad8d0371691774c1cc5df1e88a8e58930fa518fb9a5fb320cf, 0x03706865a87f58d64be2f1bec0bc0edca5edc3641266c67039adaac773b10c02,
    0x07d1647af6990c16beaae8136bc6e2b9b4fd77bc1cf24bd8a4580209769618a1, 0x047db35d9148dd12295d442e1229b1555f6ba1ea94954d7557ebdb34b75b4a27,
    0x05683d4eb70caa8929fd5294d0d223cd106493542c389ce844f0539bf8cc316a, 0x07bce98906951240bb211ae32eab43b7d8bf19384bee98d43864ddfaece33ad2,
    0x058cdbefff3d949adf4b3d5ca608939f6d284de77d64312272dfd73657db83fb, 0x0229d84d2d13b28bd6394d202a54cfe65f5d7e11cdf39eeaca3e7b5ef5744b4b,
    0x006355520ea3b7618f9df332238411545d617ba92b242e8dd31dffe38a33f086, 0x03d2b9c9c892de79123f101932be19c1091fa9fc8d08e5afdd2218229d341d57,
    0x00a3f0ed3dd270308f5d03cb9c556cfc1e0315b5c17351ae7a12cc80a7bf92c6, 0x07706578cbb2d6789c69c66d15df2f131f148fd777720f1a11b381c3e6bf9e7b,
    0x064a4557dbf5064986246c9c6d2f4bf784b72cda5856a0d2b0bd2a311618a19b, 0x05962b9e83de192ba935d053bf40c2e9edeb9d07474715809f4e5b4d9a467345,
    0x03fd5258d8cd384134e6b56d7e7912fa5219ee78b5cd9a09083cab9b4ae961da, 0x074690f22693d3bff89d26f60628fb4c2225b966d42ed68763054ab647164b2e,
    0x00cf0b8aecb2d04e76afd059694e0ced2e1f51174799954d82c5e360c1bb8b7a, 0x05d61f56df75fcd1e2d525d869e20651a9ef5e31ee76d85dea0ecc9701c9d874,
    0x027a153217c3d2832b8709e6a1637a5fa0767d59080687d5bef0ed803048f6b1, 0x05e95b51b0ce8a2b6065b28fe42dc75dde44b241e47461e75236e0c550857393,
    0x015ade725e4406014c5c599ea4d954383c9b861a7c191f5a5f1ae0c054d94965, 0x00b14b322f4965f8c1a6498c2292f7371776d466e841cb7e180ed63ea2c4ba2d,
    0x002cb07b7131600155a4b22b7951b5d868fefef315aaea7754988c27442ef2c9, 0x0561396457069a06fdf5eba550f32c7dea412781964e44a246893e83ff961856,
    0x019e32a24ac608ab776e2e7da371711071b4b4ad3f0b2c1bc3325ac0b8140562, 0x03e18710fd7292cbe21775f4687244a744faf7d5a4a64122f5532395d1c3f3bd,
    0x07d0ebe2b5000e730a144f9d3d52bcc4779b8b2f9fda219c70fa90249ecde514, 0x02b28cb9c6e5f28e8d4f1f4790cbb86bebc6efc72c7fca4b02ac1d77cb7eee1e,
    0x02d314cf577fdcd4b04f72620f59b79c3b951e89a49637db70856def2e4c73ac, 0x00595c7972c29489571f3f9319811015f4f79425b84f2ab820a7faabe0f28208,
    0x004b731d5bd9c37f3e22b485ae885783082f76862d4b0648315e2dc99be56ca1, 0x02293fd81670bd397fcd7775a1daf85dfd3aa091d7999e1d361ce99220d07c37,
    0x01fbfdda64943d144fe2e23aa54304c4e4c2bc1890334f852c0917aea22adf86, 0x07aa6c2bf37d059c74c043875f4bf1db4b008d2c1819f2701a546b3d6ec66e0c,
    0x052c0c5ff1f1a646e7cf15743b926a8e74d3ae5f12d6faaa678293ac3f13e750, 0x01edc8a89e79201e2285f8e99b05f94724bc75ab194466f8f2201e025a6c0830,
    0x00933dd482c31a232a16ea6ab9aaaff811b467f49c3a9c0a77522f2b5a76b07c, 0x01d8417b3abac6d6a95f882842392ff331d3eaa2eafe9b6b70818cd6c4abe42f,
    0x06da66d145625bcc7d9b09bbcd94354794c77f9cd36c3a7391f39aa9a8881240, 0x05fe52dee97ae6f0bed690227ad94d3238f5b4a39b553e9a748dc7dd12e3cb9d,
    0x064299e99fae8c76c6c6b33a4cf496a04537ba943ca072ab2082f17e447f6eb1, 0x071fd023b0c8efa3aed9b4745323694b75df93bbe9e7654f72199ed87f12d746,
    0x0602e01351c0ce8199f2d2790fbc658ed805490ca7d9a1b8c513babe7705633c, 0x06108173fc40fdab6c4a61ccb6827d1b00f22e17138141a6ddde00b51a9f9881,
    0x04fc76735760d7308b711eb67b1100b5aa4bc589f15d23384788150eca32a47c, 0x05dc4f9040d3cf93f3f62f90f1b28b0560fb835e1b648fa137d6c33b4d7c428b,
    0x0732c8677310f7430f62135100ff191c92a324cd61e9cbd65c8ca4ed49832421, 0x0344b0ad7c3300d4b74a299f8df23301e806849afa80446dfb616867ca59732f,
    0x03bb03e8f7f17385c32f0797fafd94dde5d423625e37911139f56ab733fe72f3, 0x032a1f5f523706eeafd3691c81a1837b51bd097f58650cd350c85b8d640c5e2c,
    0x05bb0cdf6dec0f18cb3b16d84914420d3e8fcfa9e2fd30a4993fd3246a176f86, 0x02bd1411a784e61a7dace3112bb733bc0815473fc02197ad4f3ecf16c45df52d,
    0x00153eeefc40582c02cae1417cd78648d2e7a75391699c7d838487d4b7be312b, 0x005097c20b0aa45081a4f701e2427b6ef32dc040473fb0840e08dbd9bdfe4a6f,
    0x01083da804e1aeb398e737a236beb6b4b5afc2946756bb076a0ed5d0cb5bb371, 0x01dc69265df2705819f6a76543cd6ca78ee968bb9e20084f20826842e9984c29,
    0x003bfa4bb9457da75182c745f5551791464a8aa4b77895da20f287debcf53844, 0x02d3f9d291f6d271838b942f40decfc0503ae3741d7c7e1bc0686e56a85062df,
    0x071d1c6b00fba3876984801fff587b54a449b000ca6711533922042a1c9aade3, 0x072f3132d4c8184719dccdeeb70b9cca7b4a70eff6d071929aabd1c52ff42191,
    0x014d6961cb116a2c4f7e555a5bc06896e905b3a5fd7ca6ce2c3e36cb15e0d982, 0x03452251c0680fa28251c847cc938d2be81db49d2b31f8b663c06c8c603d3e8d,
    0x0087013abb3831a030c2992fee7a38d914ae03d082dede396907222b3c242d21, 0x00719f51cd314911a52473a46837e621e144db537b94bb00e15587b212ddc4af,
    0x027ae4ecadabd7df5dfe978d54cb90ba9b3141be0bae112dccd5f8ee66461506, 0x011f179e64823e9203cdf970b896d7a9e88734d6d16c36e74f1724bc0783318b,
    0x070974b3a58b72e15b10be6c224c430f5d867f90a25d53000517b3e6b2247b66, 0x04a27941af2abd72cccc2753ce2bd18dd9dd0147ca21aadc8b46be70d7c888c8,
    0x0643aec46707e1d085501fed6aa8867c7f5f053c7af25d6a90221ab5a903e0c9, 0x004370bfec8eb6fb96483eb4610a4decce6fe59ac87bc7f981aba72ea2179213,
    0x02af9e16a3bb28c14ccbd9e4b2706ada9b6658dc22751e33d32ead94e6af58b2, 0x041b5961757f76d3ee754fc6b1041f51fd93efb183ada3fabde2d9c03b4f6793,
    0x003995929b8ea89d8535cbd717215e923fd76979409b2e802517a00d2846de88, 0x040f3ac6f9af75e7a727c955ed3cc89bc059f264a520c6c0b52eea80f58c09fb,
    0x02ccf9e338a3cde11451e814a76ff1d9a549e3dc6abf9874454231a6b10a53c7, 0x073b9636f958a55c8f0e9c848801efbd4880a6364f886c5da1ddb8430cdd6765,
    0x011a14aadb11d39427676695d7f42481c0a347dd24952ca6ed90722964ef0509, 0x03f80b189c59966284d895abda39fb4ec170c7511dc49df900479690bded438d,
    0x034df269d913a236ffc0dcf5a9003d8370bd9612ae8938f80fe8c39129a463cf, 0x0282300791e6f256a083d726eac63456824e7d2d04bc488d3a7cee2eab987740,
    0x00d43693d3c7734cc12116548b8cdaf90ace4c0626e988f65d372e12930d63ab, 0x025165295824b1fcd6d6354a9d74ae6bc13058491d20adfedb8d8817568f5140,
    0x063a20df3641cab6b35266a262e3a637d85a079d704091ba9756a98a4acedf29, 0x0020c76ac50df6ed9f34ebd2d4d8415a58c3d63c8c0d37e5cfa83ce99580ffe0,
    0x051ce9ce54a023eec6acef999db80f784ec20c8c49107419b1a05c6e456192fd, 0x013018fe7f30730fac919eac3f5f0602501ec61032281c2daec3668605b7f3be,
    0x0037832d54c5bbeacb76a9657b566e689a54b8cfa232e47c5cefed66425565a7, 0x0233678fbce6ab0d3ef6634c37adcd050322006a1fb379c8bc3d4ce43d155687,
    0x03d5c0c8e7a981d04f80a58711fac5fbc5d880d63f721c9d1c69703d936832d2, 0x02fb25891e769103d7d7f88e72851d0f7b388ea0c7f76d186970c2bd6f5e6fe8,
    0x04d137dc4167c75e84bb9ef55f9ea630cdd1f913e5ba2be8be00fef38d0a4f62, 0x03945877c605f237bbd68e42096456ce3c6a7603d65114e55280095564587850,
    0x05febdef850a152af221efcce585b3b1a09cb7bab4c8f428a2bf386fd1d9f0d8, 0x0536ea2165dfbc7a472bdf1f9939fb3946969fabff59fb276cd4f26d1ba67d05,
    0x05afbc2a1f510c73d346dc22dbea0df431790d62e3a5c91ec9e19b8d15a6b553, 0x034ad1207a5d536788818a5c108d14bf49afcc8c5171131ba153271e7cb9b20b,
    0x00b8073eaaac7169fa20bd760d03e88f730caab9acd56acabe98a9840122c540, 0x069c9895445191f49f7447ea05c3eb7ceee91b1bd74f942c50ddc7ddce6939fd,
    0x050a6b884a6d4d4a25789427e1b411680049d6846d81f54edbf97ad2d63be700, 0x0353959faed49fc065e764198e6aafc91e5bf0db84faca5239885ddc3384ad86,
    0x00e0b0a506fd002f6b4f86486d10691027dbcbf795a449f8a27c6b625621901c, 0x004e3a835102e9b8f2acb23cd5ebc43169d343ff4fbdcf7397153f31de4e836c,
    0x0682502f55dfdf8362068c83773ae5d5c8a84f1a6aef62c458ff57993f8cfb08, 0x036c1db8954b5cbd93d9ed145649474506c784c6154d4cecc398fe62116d3c7a,
    0x07a35489e3f2f883792aebdf9636df7760edc64a89aefd5824c9dfad90ae1c9a, 0x0380dbd0e28d4029d19c0a4af3163da8a5bc5e62db36ba4febf6a03eb488f87d,
    0x02ae7235b95ab1a947fd7a0bebd2800adb9ba0b8d5808d75417cd25f705175d3, 0x057e0cc7a4ec3d8dc21237779b32245c9031a3bfbe522c88b6156ecbf49e98e0,
    0x0273eafd33af8e826fe5b92c5c35ad64a6343981dd15877a1b9bb9dd5099af02, 0x0099de0431c534dc567c9b1659bea96c3b0e89155dac4abed70be9522a87a1ea,
    0x0694265a9d6e3a500015ad8f4002ed8e37142e6d01387172b4ad184e2098e30d, 0x03dd35eee029ab656a451bf659094a2b966d18ddd0bc63281c59f1212b787f56,
    0x00a98ca53712e3f5c3335e18bbb8d66a01f784e1795d641784d81949242404bc, 0x036cfb57a9a9cf653e1d8380b82407268b9fa4567ce35870de55531b19e80793,
    0x01ace0db9650cd9abbb6b828e7089fd5bf0219ca878d877a0a6aaed81579560f, 0x0267c5b486837df01c83ead66953155d8ab83b7f5af5a4ef5da3cad66d323e1e]

/-- the powers of `FieldElement::root(256)` -/
def OMEGAS : List Nat := [
    0x0000000000000000000000000000000000000000000000000000000000000001, 0x00c92ecbfd121b58bc7924d5dd51a717c4d78992d0e87cd59f1bc8d7ff0cb347,
    0x000fcad19556f9b8587781ce1b03a097efa6682256f9ddbcfdab65dbdd4af20f, 0x0201ca0dc0e58b175630883aa4c9ba04cf932770103dc7300d36fd25381692c3,
    0x0128f0fee82b2bb55e869a0710826800d09bd064f9e225ecd6871506b2703765, 0x060c4b2b3e708d7cbd1334c8cd02a7844c40e38d09a21773912442e5b8763d98,
    0x06bcfb710ec7604e1536dbee451f620f4f0d6b8f835cb77b3444abaafec8f5c7, 0x051bde215b447cab2dbfe9f55c72aa7fae490861ce18a3ad599f8ebccb87faf9,
    0x0789ad459ecd5c85fcdca219ce6246af26da375d1a8e79812225638f9b48a8ab, 0x039e6915ee48124f786a93bba8090b3735e470f49f512c5f048141e83d29f079,
    0x052377342fc8aa75d9d7bfd73c3eabc09326b42e80d8825fbb704895c0e69a8e, 0x06ec50a9ff599872889a04c0806fdc002ede71b88bda8fbcc47a3de612095205,
    0x05afc640ff0f57b9b267655f3da7c64c4a910d81023e4d8ab2cf6b0e179c904a, 0x053c6b609d1e19b74940a9d0a46d6410ff1b4f8e6fa1b2dd63f95627e8345153,
    0x01bc0de6ee9c03d18d59ddc88665967195b60cfa9e8fdbdbc98e127afebab28e, 0x035ad4d0654a222b2e781e07201a08ff1cee31d12abf787a303b28a874cbe3ae,
    0x05ec467b88826aba4537602d514425f3b0bdf467bbf302458337c45f6021e539, 0x010b1b6ec346a4e2a4732e4c307b2c9659a50848d562e4f2554226bbcf2c65cc,
    0x034e756b96dfd6d11e1abf6197ffdd1048805538cb63bc3ca9de77271c426432, 0x055fa1f0a1c4f7707a30ce5354ea5953b6855962e6076ad09527b8459bb8dfae,
    0x03a3bf0c4876db92b342a839378d12b97ec35d5bb74beecd3c616e4e34cf48fe, 0x02e5e8f8e99a7ee24fe90259188d20af402f39ac061849d7233bd10b0db9b6e6,
    0x03eb3f519b5887ccdbfbc8fc9d618e848c1cd3a7c2d897318c8067930474b27d, 0x06551215c5b462beff5025d2bb6a6a59c03079a728417dacbfa889dd812cf7b3,
    0x02c226e9010da226650d4e831a8c21933d6d16ce5fad48839e202fdbb6c986d7, 0x01f5a003c72f2638fa27ee4cc0ca8ca52d51a0c41a60a579a2f787210f7f0ff7,
    0x00d1cda3fe2d5b692d8c40daf33801799f6157104b1699eab55ce4021512da07, 0x06c0aa5df5d00c3452ade90fadd2f8011a375a420aac519dc7710624ff812272,
    0x04a44b0df399815cc4b2a4e3c2f8755f750774e2e9ec857782aa7feba1d98b1e, 0x061efd2a920a10d003fb6e59b19cdcf6825148e6757f85a8794595009936fe09,
    0x0736334f8e62d9f5d7a60772f41c322b33a8782fee85a9d82d5c221ddf4b6666, 0x01469989015bcdfc042c7ef4021160089c9cb0df8d61f1793f1f57eb58269c06,
    0x063365fe0de874d9c90adb1e2f9c676e98c62155e4412e873ada5e1dee6feebb, 0x029a5f5171f4a1528b10e3d170ca3f160f3ccfd43f6a978680847e25c8727506,
    0x034659ef78478b164410c5396df50b602e739f6a1da3b453c5b06c12655028a9, 0x0245c8fabf9236d258d7846b5d0edbcc95b70e967e2a0acbbe786bc07c4a1e3f,
    0x060150b421a2127371ca3d710511a6a9299ff03be41f621dd1bad555c776df4d, 0x02d81abc94443f25cca19bbc1b5ca88aa692ded665f24219aa8f77d6b4e47c98,
    0x04328cc041aaaecf4ebc8e5cc5d13b4f3d47d10c901b273d0d8adc2d9dbd1a69, 0x045dd101cbfaeabd0bed769ff1a33a749527154229885d29ccc3b7beae21a12e,
    0x0211c88e2dd40bd3cdd1c69103a26c06339749cf6943864821fdc6d10263070c, 0x05f60e6f070efe99f8a644d33aaf4c157eb7ce11762f82da5066e342a2b2eb7e,
    0x06fd2cdeb2a75a48a53317fd9ce5e39efbb2aaa15108ac5f3f9c7449d47bb72e, 0x0397794b4a887bd22e0a7404d5ea1315dc14f6b9189e3addd7d2766425901ebe,
    0x011e64c83c6d5798845170fdada655ccc928c1c64e3bb3de3b6d627083055f32, 0x016ee54bcb725324d9a77a7403c50e1778c52e39418f68360388ffdb8a2e7b40,
    0x07c2123b1db00905af57209c6e31c1851d0046c12828ecf03c2ce3cc9f32b467, 0x000d4b18dcf399202b4e19e8046d047f87fe2f97db7abe8dc788f43646a12023,
    0x000b54759e8c46e1258dc80f091e6f3be387888015452ce5f0ca09ce9e571f52, 0x0380d46d016f410bc593303d18770a601df1e141fb436c5f416c24e26a7ea7d3,
    0x06afdd1b3855b44ffda38ca06d48cb47b7975567a7875f48954cfbb7f8508e0f, 0x029d7c0fe21bb633e41ed90fd4c5bc0138d25b51df343dcdca3fa0c8b55feb2c,
    0x03f0af1b9a3b60e14b2af2b95e1bb124c8e30a5f0158e52f348a84263bafbe3d, 0x03c9db12f659cc547905186927968ead87d200629b7b155dd401021a1aab2342,
    0x06932c485f5e6405260ea24122686953528d734a25d608bd2dca28f87558f19b, 0x07d76d471264e4df06a9a9626d05b6f4d237e6d9743a6d21339d7d8897026abb,
    0x035b01f2f03b33a0e6416301ed24191cb5b5db5ad8831dda32f035d1bcc1cc71, 0x03158106ec550d9f7fae90fa56b9a3fa1270e955023972d759a56e4a8f6907ad,
    0x01f43d58cf6b46a75950c477d79350098a1280a4e466f43f078d59732aa00337, 0x00a9e5628e776b6877185e1af7fd585c8e733addd24329b13a31cdb2c02602df,
    0x05863bb78599ee2d50aaaffdb3832b88493a0eca3a8773991c69d93c79f23534, 0x019badcc2c170167aaf0cb6891ec68c7ecb6264355a5362d2a58b0a38b551644,
    0x018df793d23608a7ab20eae07f30362ab93463533b52ecf2ec07392f3403338c, 0x011676c9e94631929b1daa0a79a84643596afec7d248f9fa5a219ecde1990e84,
    0x0625023929a2995b533120664329f8c7c5268e56ac8320da2a616626f41337e3, 0x064704661daf4d55bfd2840fcaeb1043f76a536343807c8ea4e97014b16f36db,
    0x0761bb5c1977d1a3d35a0244ec837f677b61667a470459df6cf1c5294f147c1f, 0x00693f12cbf2c261ac1d1c440304bc594d5b069d31838a630d59f13f12fb493d,
    0x05a52bc69889a9a6da8f897ffa9f2dbba0f471970a883cf71a7078896378b388, 0x00afd33f7cd8db1aaa0e148db3b0b6333fa745037c555fb8c9559fca02797a85,
    0x05f86c167624bb80ada091a804564708acc1f30d0557cdc57f8ee0a0b1cc9476, 0x04b0f4d5220e4f7e13254a67d98c081b7646ce4892f1ce6987e5a71f3ab9aa25,
    0x035183f2d8880e8b8a5417148527353e46bcdb6075d123eb2cddc8779cdcae55, 0x0093aafbae9df677b02ab3e4c3bd958b028589eb43b4876f7e381abc4eb898aa,
    0x01d70ca008bb98c1cd7e6cefec863eb5566d858feb0b6f221c3b71d8ca92116d, 0x04c9f57b7be7c4da0f57e46ff30352e0a5369c95cabc67fa25a90be15d713d90,
    0x057fc4f272e9761547c938438129eb43980068173b8a2f74b2cc4be2dd0fa063, 0x03c5f2b0df0708f08b757d25226e94e3ae600cf46b5c6f88e23f1af9987ccfb0,
    0x03938f1c98e681286eb2ccac3e1a04b190445df3b5b6893f80586ad2aa7e9142, 0x01cf9097ab336d8ca53dfa25fc57cfb4de5daf5006f7aa89bfdd87332c790394,
    0x05ce3fa16c35cb4da537753675ca3276ead24059dddea2ca47c36587e5a538d1, 0x05c56fe7a7d7d8aba8a43b322fedfee984b841aa92c12ea0e4778611d10e49fc,
    0x0654da5688e5de74ebc056725eb9b225bb2860cf3fc8ff28fe0eaa6562c1325d, 0x079c8b44e638984a06d42d2c4efef28b0c9c4b60496dc10bdde80810af952590,
    0x02e903e46b92749458e98a4d0229f24eddfca1f0bd47e012a0b100a478c9dc6d, 0x01d143bab1873a7d4f202199f91650095e9868722bc42a014a2a0a0cbac2a11e,
    0x06d9bbdf15973846160b421f3a9c6d11ab37637242d91a95c1cd6acbc6b1c870, 0x058950ea91480c11a798d222763079db23a14510f56d6180e869da6badd33ad5,
    0x041104ad3bf9c4826934465197a4e85e902b07b98f85a21e6b16c3e194daee75, 0x026ac328bb55b6b27846cf6e56ed9494156a82b5b37c7d3f4d2df346e8c470e9,
    0x07df7e641e3c012025da5b5acd7a786a722caf636ac08ebbf3433e801331419b, 0x05d1cfdcf3a061c0bd1968c20b56c6cdc3168dacd534c24a86f7b5d8e9698066,
    0x06614ea2767b8a85c450a87a6bbe953f7f6acdafe95c3daef83c78b287da2095, 0x0503e2ba6c5c724c3c5cc8108613eea1f0e8106fb64d955552eb45dc66fe163e,
    0x0205996fb4145eeb74ce26b4044cf9e536c8c10c3f04e6a43ab5e4364462d21b, 0x043b50b973ac000d84057bc6e44bc7d192ac4fe9bb0d966358dfb9f976e8b92b,
    0x03b912c31d6a226e4a15988c6b7ec1915474043aac68553537192090b43635cd, 0x026b2cfea363c06596b73199bbed5d12faea5628122607e83dedf28f5497c822,
    0x02ae2496e18df24a15e2c11ca28c377d42b5ca06da64a4cb383d8e6698a6d7f2, 0x00547ccec2de59bb9e2dfbdc2b4d18acfd53fd2dfba6b6e6db4befce0315b1d2,
    0x03e676740225ecc5c4129245307e2ed7bb578e514513589e19964e8ec7bc182a, 0x053345b9974e81043934526db8683cc8de201caa99e230ce2595dfff52148902,
    0x030be8f6db886a62555de5a3b5a9f421f132ac1efe92977d27ee3a5101a9c112, 0x06336f8fabbf8c01330b39f20873dd0ff4c531b388e9797bc37b2703a3c8ac9f,
    0x0686012ffe5698d5f9f0fd5b17c8c5fcfa6c8e6fe64d7215b0fa64fcf8e67715, 0x065ea9eb78decb02b90787439803ef3989d37740964f583da6d2b54a0899da6c,
    0x01efda5b32aeeb62716849829d38875c97d08b1271c5c10f79e68f945883a7ef, 0x07a9ee15915c4b3aeeb591b853e7399c37a4823adcd84c3adf4a9aea27f81f48,
    0x0387824dc7d4462811afa0b6bf061d424437d0ba66b4af544e0fd67d79d82548, 0x03e65193971a206b52dfe969d823ad2e85a7d38df59cb04a3e5394877b51fbba,
    0x0104b7e078e6716dd13a0fffe8203d21150d7968f8b48dffb0eaa8398ba2687e, 0x01ef4c94fc363d589dc78f2dbea7f6831ed1ccd85f172353963550d98c745308,
    0x023c12f3909539339b83645c1b8de3e14ebfee15c2e8b3ad2867e3a47eba558c, 0x011951ff901cb351618c67235db2a16255710d260e21782cb68d5741da33d85f,
    0x028dbae56adbcd760ff401ca5df2168920e5fec8a69f541eb0c24a8e0b09cc07, 0x054f1ae82b1d9f6dce349726fe57050f728679c2e320ac920e2c919cab660fb9,
    0x017489197a5e5055c05e0ccaa7c6c96a7debd9b5013eb91479c40b7e55e175f5, 0x0186cc5e41fefd571e955bd182385c6d288a55fdbddff26618cdd47ee07899c5,
    0x016deea787b9ee129a9b3a32ad396df4e62e4194196c6eddfb7155960d9c17f1, 0x0253a83ce9c2c2c93f9eeaaa246b0af80ba789d62d7f36abbbc9b176afee18a3,
    0x044e3695db389974018d54fadedea76313cb6344311e464f62173a3091f410c0, 0x02f449c3c710c50d45f7a9e6c82b51efe362ff5ba23d1192027eb67bf0ca181d,
    0x01732c724e789b6f273096e0015da899f97d2e8ad81406b719ce17a7a4c6d32f, 0x00c5a3dd3a3ac2c5b45105b4aa69209611336e839426d2ac3deddd5402e54e74,
    0x06cbd4d6b94eb939ccb57c5480e138a173a27ace4a5fc54b4787ab61db989929, 0x07fa71827697ee902dbd6e44720371cec088c639337b2302d9eec253038b9789,
    0x023f58e84357b419dae9b58954fec8bfd11253b69f7e073c738e42afcefaa9af, 0x053e9e43310171127ca85800a26ad63c923b601c735afd6be52c850c2f594b0c,
    0x0800000000000011000000000000000000000000000000000000000000000000, 0x0736d13402ede4b84386db2a22ae58e83b28766d2f17832a60e4372800f34cba,
    0x07f0352e6aa90658a7887e31e4fc5f68105997dda906224302549a2422b50df2, 0x05fe35f23f1a74f9a9cf77c55b3645fb306cd88fefc238cff2c902dac7e96d3e,
    0x06d70f0117d4d45ba17965f8ef7d97ff2f642f9b061dda132978eaf94d8fc89c, 0x01f3b4d4c18f729442eccb3732fd587bb3bf1c72f65de88c6edbbd1a4789c269,
    0x0143048ef1389fc2eac92411bae09df0b0f294707ca34884cbbb545501370a3a, 0x02e421dea4bb8365d240160aa38d558051b6f79e31e75c52a660714334780508,
    0x007652ba6132a38b03235de6319db950d925c8a2e571867eddda9c7064b75756, 0x046196ea11b7edc187956c4457f6f4c8ca1b8f0b60aed3a0fb7ebe17c2d60f88,
    0x02dc88cbd037559b26284028c3c1543f6cd94bd17f277da0448fb76a3f196573, 0x0113af5600a6679e7765fb3f7f9023ffd1218e47742570433b85c219edf6adfc,
    0x025039bf00f0a8574d989aa0c25839b3b56ef27efdc1b2754d3094f1e8636fb7, 0x02c3949f62e1e659b6bf562f5b929bef00e4b071905e4d229c06a9d817cbaeae,
    0x0643f2191163fc3f72a62237799a698e6a49f305617024243671ed8501454d73, 0x04a52b2f9ab5dde5d187e1f8dfe5f700e311ce2ed5408785cfc4d7578b341c53,
    0x0213b984777d9556bac89fd2aebbda0c4f420b98440cfdba7cc83ba09fde1ac8, 0x06f4e4913cb95b2e5b8cd1b3cf84d369a65af7b72a9d1b0daabdd94430d39a35,
    0x04b18a946920293fe1e5409e680022efb77faac7349c43c3562188d8e3bd9bcf, 0x02a05e0f5e3b08a085cf31acab15a6ac497aa69d19f8952f6ad847ba64472053,
    0x045c40f3b789247e4cbd57c6c872ed46813ca2a448b41132c39e91b1cb30b703, 0x051a17071665812eb016fda6e772df50bfd0c653f9e7b628dcc42ef4f246491b,
    0x0414c0ae64a7784424043703629e717b73e32c583d2768ce737f986cfb8b4d84, 0x01aaedea3a4b9d5200afda2d449595a63fcf8658d7be8253405776227ed3084e,
    0x053dd916fef25dea9af2b17ce573de6cc292e931a052b77c61dfd0244936792a, 0x060a5ffc38d0d9d805d811b33f35735ad2ae5f3be59f5a865d0878def080f00a,
    0x072e325c01d2a4a7d273bf250cc7fe86609ea8efb4e966154aa31bfdeaed25fa, 0x013f55a20a2ff3dcad5216f0522d07fee5c8a5bdf553ae62388ef9db007edd8f,
    0x035bb4f20c667eb43b4d5b1c3d078aa08af88b1d16137a887d5580145e2674e3, 0x01e102d56df5ef40fc0491a64e6323097daeb7198a807a5786ba6aff66c901f8,
    0x00c9ccb0719d261b2859f88d0be3cdd4cc5787d0117a5627d2a3dde220b4999b, 0x06b96676fea43214fbd3810bfdee9ff763634f20729e0e86c0e0a814a7d963fb,
    0x01cc9a01f2178b3736f524e1d06398916739deaa1bbed178c525a1e211901146, 0x0565a0ae8e0b5ebe74ef1c2e8f35c0e9f0c3302bc09568797f7b81da378d8afb,
    0x04b9a61087b874fabbef3ac6920af49fd18c6095e25c4bac3a4f93ed9aafd758, 0x05ba3705406dc93ea7287b94a2f124336a48f16981d5f5344187943f83b5e1c2,
    0x01feaf4bde5ded9d8e35c28efaee5956d6600fc41be09de22e452aaa388920b4, 0x0527e5436bbbc0eb335e6443e4a35775596d21299a0dbde6557088294b1b8369,
    0x03cd733fbe555141b14371a33a2ec4b0c2b82ef36fe4d8c2f27523d26242e598, 0x03a22efe34051553f41289600e5cc58b6ad8eabdd677a2d6333c484151de5ed3,
    0x05ee3771d22bf43d322e396efc5d93f9cc68b63096bc79b7de02392efd9cf8f5, 0x0209f190f8f101770759bb2cc550b3ea814831ee89d07d25af991cbd5d4d1483,
    0x0102d3214d58a5c85acce802631a1c61044d555eaef753a0c0638bb62b8448d3, 0x046886b4b577843ed1f58bfb2a15ecea23eb0946e761c522282d899bda6fe143,
    0x06e19b37c392a8787bae8f025259aa3336d73e39b1c44c21c4929d8f7cfaa0cf, 0x06911ab4348dacec2658858bfc3af1e8873ad1c6be7097c9fc77002475d184c1,
    0x003dedc4e24ff70b50a8df6391ce3e7ae2ffb93ed7d7130fc3d31c3360cd4b9a, 0x07f2b4e7230c66f0d4b1e617fb92fb807801d0682485417238770bc9b95edfde,
    0x07f4ab8a6173b92fda7237f0f6e190c41c78777feabad31a0f35f63161a8e0af, 0x047f2b92fe90bf053a6ccfc2e788f59fe20e1ebe04bc93a0be93db1d9581582e,
    0x015022e4c7aa4bc1025c735f92b734b84868aa985878a0b76ab3044807af71f2, 0x056283f01de449dd1be126f02b3a43fec72da4ae20cbc23235c05f374aa014d5,
    0x040f50e465c49f2fb4d50d46a1e44edb371cf5a0fea71ad0cb757bd9c45041c4, 0x043624ed09a633bc86fae796d8697152782dff9d6484eaa22bfefde5e554dcbf,
    0x016cd3b7a0a19c0bd9f15dbedd9796acad728cb5da29f742d235d7078aa70e66, 0x002892b8ed9b1b31f956569d92fa490b2dc819268bc592decc62827768fd9546,
    0x04a4fe0d0fc4cc7019be9cfe12dbe6e34a4a24a5277ce225cd0fca2e433e3390, 0x04ea7ef913aaf27180516f05a9465c05ed8f16aafdc68d28a65a91b57096f854,
    0x060bc2a73094b969a6af3b88286caff675ed7f5b1b990bc0f872a68cd55ffcca, 0x07561a9d718894a888e7a1e50802a7a3718cc5222dbcd64ec5ce324d3fd9fd22,
    0x0279c4487a6611e3af5550024c7cd477b6c5f135c5788c66e39626c3860dcacd, 0x06645233d3e8fea9550f34976e1397381349d9bcaa5ac9d2d5a74f5c74aae9bd,
    0x0672086c2dc9f76954df151f80cfc9d546cb9cacc4ad130d13f8c6d0cbfccc75, 0x06e9893616b9ce7e64e255f58657b9bca69501382db70605a5de61321e66f17d,
    0x01dafdc6d65d66b5accedf99bcd607383ad971a9537cdf25d59e99d90becc81e, 0x01b8fb99e250b2bb402d7bf03514efbc0895ac9cbc7f83715b168feb4e90c926,
    0x009e44a3e6882e6d2ca5fdbb137c8098849e9985b8fba620930e3ad6b0eb83e2, 0x0796c0ed340d3daf53e2e3bbfcfb43a6b2a4f962ce7c759cf2a60ec0ed04b6c4,
    0x025ad4396776566a257076800560d2445f0b8e68f577c308e58f87769c874c79, 0x07502cc0832724f655f1eb724c4f49ccc058bafc83aaa04736aa6035fd86857c,
    0x020793e989db4490525f6e57fba9b8f7533e0cf2faa8323a80711f5f4e336b8b, 0x034f0b2addf1b092ecdab5982673f7e489b931b76d0e3196781a58e0c54655dc,
    0x04ae7c0d2777f18575abe8eb7ad8cac1b943249f8a2edc14d3223788632351ac, 0x076c5504516209994fd54c1b3c426a74fd7a7614bc4b789081c7e543b1476757,
    0x0628f35ff744674f328193101379c14aa9927a7014f490dde3c48e27356dee94, 0x03360a8484183b36f0a81b900cfcad1f5ac9636a35439805da56f41ea28ec271,
    0x02803b0d8d1689fbb836c7bc7ed614bc67ff97e8c475d08b4d33b41d22f05f9e, 0x043a0d4f20f8f720748a82dadd916b1c519ff30b94a390771dc0e50667833051,
    0x046c70e367197ee8914d3353c1e5fb4e6fbba20c4a4976c07fa7952d55816ebf, 0x06306f6854cc92845ac205da03a8304b21a250aff9085576402278ccd386fc6d,
    0x0231c05e93ca34c35ac88ac98a35cd89152dbfa622215d35b83c9a781a5ac730, 0x023a901858282765575bc4cdd01201167b47be556d3ed15f1b8879ee2ef1b605,
    0x01ab25a9771a219c143fa98da1464dda44d79f30c03700d701f1559a9d3ecda4, 0x006374bb19c767c6f92bd2d3b1010d74f363b49fb6923ef42217f7ef506ada71,
    0x0516fc1b946d8b7ca71675b2fdd60db122035e0f42b81fed5f4eff5b87362394, 0x062ebc454e78c593b0dfde6606e9aff6a167978dd43bd5feb5d5f5f3453d5ee3,
    0x01264420ea68c7cae9f4bde0c56392ee54c89c8dbd26e56a3e329534394e3791, 0x0276af156eb7f3ff58672ddd89cf8624dc5ebaef0a929e7f17962594522cc52c,
    0x03eefb52c4063b8e96cbb9ae685b17a16fd4f846707a5de194e93c1e6b25118c, 0x05953cd744aa495e87b93091a9126b6bea957d4a4c8382c0b2d20cb9173b8f18,
    0x0020819be1c3fef0da25a4a5328587958dd3509c953f71440cbcc17feccebe66, 0x022e30230c5f9e5042e6973df4a939323ce972532acb3db579084a2716967f9b,
    0x019eb15d8984758b3baf578594416ac08095325016a3c25107c3874d7825df6c, 0x02fc1d4593a38dc4c3a337ef79ec115e0f17ef9049b26aaaad14ba239901e9c3,
    0x05fa66904beba1258b31d94bfbb3061ac9373ef3c0fb195bc54a1bc9bb9d2de6, 0x03c4af468c5400037bfa84391bb4382e6d53b01644f2699ca7204606891746d6,
    0x0446ed3ce295dda2b5ea677394813e6eab8bfbc55397aacac8e6df6f4bc9ca34, 0x0594d3015c9c3fab6948ce664412a2ed0515a9d7edd9f817c2120d70ab6837df,
    0x0551db691e720dc6ea1d3ee35d73c882bd4a35f9259b5b34c7c271996759280f, 0x07ab83313d21a65561d20423d4b2e75302ac02d20459491924b41031fcea4e2f,
    0x0419898bfdda134b3bed6dbacf81d12844a871aebaeca761e669b1713843e7d7, 0x02ccba4668b17f0cc6cbad924797c33721dfe355661dcf31da6a2000adeb76ff,
    0x04f41709247795aeaaa21a5c4a560bde0ecd53e1016d6882d811c5aefe563eef, 0x01cc90705440740fccf4c60df78c22f00b3ace4c771686843c84d8fc5c375362,
    0x0179fed001a9673b060f02a4e8373a030593719019b28dea4f059b03071988ec, 0x01a156148721350e46f878bc67fc10c6762c88bf69b0a7c2592d4ab5f7662595,
    0x061025a4cd5114ae8e97b67d62c778a3682f74ed8e3a3ef08619706ba77c5812, 0x005611ea6ea3b4d6114a6e47ac18c663c85b7dc52327b3c520b56515d807e0b9,
    0x04787db2382bb9e8ee505f4940f9e2bdbbc82f45994b50abb1f029828627dab9, 0x0419ae6c68e5dfa5ad20169627dc52d17a582c720a634fb5c1ac6b7884ae0447,
    0x06fb481f87198ea32ec5f00017dfc2deeaf28697074b72004f1557c6745d9783, 0x0610b36b03c9c2b8623870d24158097ce12e3327a0e8dcac69caaf26738bacf9,
    0x05c3ed0c6f6ac6dd647c9ba3e4721c1eb14011ea3d174c52d7981c5b8145aa75, 0x06e6ae006fe34cbf9e7398dca24d5e9daa8ef2d9f1de87d34972a8be25cc27a2,
    0x0572451a9524329af00bfe35a20de976df1a01375960abe14f3db571f4f633fa, 0x02b0e517d4e260a331cb68d901a8faf08d79863d1cdf536df1d36e635499f048,
    0x068b76e685a1afbb3fa1f335583936958214264afec146eb863bf481aa1e8a0c, 0x067933a1be0102b9e16aa42e7dc7a392d775aa0242200d99e7322b811f87663c,
    0x06921158784611fe6564c5cd52c6920b19d1be6be6939122048eaa69f263e810, 0x05ac57c3163d3d47c0611555db94f507f4587629d280c95444364e895011e75e,
    0x03b1c96a24c7669cfe72ab052121589cec349cbbcee1b9b09de8c5cf6e0bef41, 0x050bb63c38ef3b03ba08561937d4ae101c9d00a45dc2ee6dfd8149840f35e7e4,
    0x068cd38db18764a1d8cf691ffea257660682d17527ebf948e631e8585b392cd2, 0x073a5c22c5c53d4b4baefa4b5596df69eecc917c6bd92d53c21222abfd1ab18d,
    0x01342b2946b146d7334a83ab7f1ec75e8c5d8531b5a03ab4b878549e246766d8, 0x00058e7d89681180d24291bb8dfc8e313f7739c6cc84dcfd26113dacfc746878,
    0x05c0a717bca84bf725164a76ab0137402eedac496081f8c38c71bd5031055652, 0x02c161bccefe8efe8357a7ff5d9529c36dc49fe38ca502941ad37af3d0a6b4f5]

end Pedersen
end Examples
end OpenZKP
