import glob,os
bad=0;n=0
for f in sorted(glob.glob('/tmp/fid/g/*')):
    b=os.path.basename(f).split('.')
    cfg,rest=b[0],b[1:]
    text=open(f,'rb').read()
    d='/repo/samples/'+cfg
    if cfg=='introspection': d='/repo/src'
    if rest[-1]=='details':
        if not cfg.startswith('separate'): continue
        files=[d+'/'+rest[0]+'Object.cpp']
    elif rest[-1]=='enums': files=glob.glob(d+'/*Schema.h') if cfg!='introspection' else ['/repo/include/graphqlservice/introspection/IntrospectionSchema.h']
    else: files=glob.glob(d+'/*Schema.cpp') if cfg!='introspection' else ['/repo/src/IntrospectionSchema.cpp']
    n+=1
    ok=any(text in open(x,'rb').read().replace(b'\r\n',b'\n') for x in files)
    if not ok: bad+=1; print('DIFF',f,files)
print(n,bad)
